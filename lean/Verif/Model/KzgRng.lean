/- Model of the randomness source of the polynomial commitments: /repo/marlin/src/pc/optional_rng.rs, and `commit` of
kzg10.rs and mod.rs with the source as a state instead of the drawn polynomials as arguments (`Verif/Model/Kzg.lean`). -/
import Verif.Model.Kzg

namespace Zkp.Kzg

open Polynomial

variable {F : Type} [Field F] [DecidableEq F]
variable {G1 : Type} [AddCommGroup G1] [Module F G1]

/-- optional_rng.rs:10 `OptionalRng`: no source, or the values that it will give and the number already drawn. -/
abbrev Source (F : Type) := Option ((Nat → F) × Nat)

/-- data_structures.rs:176-180 `Rand::rand`: `d + 1` coefficients. Without a source `next_u64` and `fill_bytes` panic
(optional_rng.rs:13-35). -/
noncomputable def drawPoly (d : Nat) : Source F → Except PcError (F[X] × Source F)
  | none => .error .panic
  | some (s, a) => .ok (∑ i ∈ Finset.range (d + 1), C (s (a + i)) * X ^ i, some (s, a + (d + 1)))

/-- kzg10.rs:113: `rng.ok_or(Error::MissingRng)?`. -/
def needRng : Option (Source F) → Except PcError (Source F)
  | none => .error .missingRng
  | some r => .ok r

/-- kzg10.rs:100-123 `commit` with an `OptionalRng`, itself optional; the result contains the source after the call. -/
noncomputable def commitRng (ck : Powers G1) (p : F[X]) (hidingBound : Option Nat) (rng : Option (Source F)) :
    Except PcError ((G1 × F[X]) × Source F) :=
  if ck.powers_of_g.length = 0 then .error .panic
  else do
    checkDegree p.natDegree (ck.powers_of_g.length - 1)
    let comm ← msmSkip ck.powers_of_g p
    match hidingBound with
    | none => .ok ((comm, 0), rng.join)
    | some d =>
      let rng ← needRng rng
      checkHidingBound d ck.powers_of_g.length
      let b ← drawPoly d rng
      .ok ((comm + msm ck.powers_of_gamma_g (coeffs b.1), b.1), b.2)

/-- mod.rs:50-59: the commitment to the shifted polynomial. -/
noncomputable def commitShiftedRng (ck : CommitterKey G1) (p : LabeledPolynomial F) (rng : Source F) :
    Except PcError (Option (G1 × F[X]) × Source F) :=
  match p.degree_bound with
  | none => .ok (none, rng)
  | some d => do
    let powers ← ck.shiftedPowers d
    let r ← commitRng powers p.polynomial p.hiding_bound (some rng)
    .ok (some r.1, r.2)

/-- mod.rs:34-71 `commit`: the source is wrapped in `Some` for every call (48, 55). -/
noncomputable def pcCommitRng (ck : CommitterKey G1) : List (LabeledPolynomial F) → Source F →
    Except PcError (List (LabeledCommitment G1 × Randomness F) × Source F)
  | [], rng => .ok ([], rng)
  | p :: ps, rng => do
    let c ← commitRng ck.powers p.polynomial p.hiding_bound (some rng)
    let s ← commitShiftedRng ck p c.2
    let rest ← pcCommitRng ck ps s.2
    .ok ((⟨p.label, ⟨c.1.1, s.1.map (·.1)⟩, p.degree_bound⟩, ⟨c.1.2, s.1.map (·.2)⟩) :: rest.1, rest.2)

end Zkp.Kzg
