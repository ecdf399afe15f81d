/- Vocabulary for extraction from Bulletproofs: a prover that is asked again with other challenges. -/
import Verif.Model.Bulletproofs
import Mathlib.Data.Finset.Range
import Mathlib.Data.Set.Function

namespace Zkp.Bp

variable {F : Type} [Field F] {G : Type} [AddCommGroup G] [Module F G]

/-- The challenges that are tried: values of `y`, for each of them values of `z`, for each of these values of `x`. -/
structure Tries (F : Type) where
  y : Nat → F
  z : Nat → Nat → F
  x : Nat → Nat → Nat → F

/-- `N` different values of `y`, for each `3n + 1` different values of `z`, for each of these eleven different values
of `x`. -/
def Tries.Distinct (c : Tries F) (n N : Nat) : Prop :=
  Set.InjOn c.y (Finset.range N) ∧ (∀ i < N, Set.InjOn (c.z i) (Finset.range (3 * n + 1))) ∧
    ∀ i < N, ∀ j < 3 * n + 1, Set.InjOn (c.x i j) (Finset.range 11)

/-- The scalars of a proof, without those of the inner-product argument (arithmetic_circuit.rs:176-180). -/
structure Shown (F : Type) where
  mu : F
  tau_x : F
  l_x : List F
  r_x : List F
  t_x : F

def Proof.shown (p : Proof F G) : Shown F := ⟨p.mu, p.tau_x, p.l_x, p.r_x, p.t_x⟩

/-- The check that `verify_proof` leaves out: the vectors have length `N` and `t_x` is their inner product. -/
def Shown.Inner (s : Shown F) (N : Nat) : Prop :=
  s.l_x.length = N ∧ s.r_x.length = N ∧ s.t_x = (List.zipWith (· * ·) s.l_x s.r_x).sum

/-- `verify_proof` accepts when its challenges are `y`, `z`, `x`. -/
def AcceptedWith [DecidableEq F] [DecidableEq G] (gens : Generators G) (circuit : R1csCircuit F)
    (publicInputs : List F) (p : Proof F G) (y z x : F) : Prop :=
  ∃ ch : Oracle F G,
    let tr := startTr gens circuit (1 :: publicInputs) p.A_I p.A_O p.A_W p.S ++ [.chal "y"]
    ch tr = y ∧ ch (tr ++ [.chal "z"]) = z ∧ ch (tr ++ [.chal "z"] ++ tTr p ++ [.chal "x"]) = x ∧
      verifyProof ch gens p circuit publicInputs = some true

/-- The proofs `p i j k` are accepted with the challenges tried; those that answer the same challenges so far begin
with the same messages. -/
structure AcceptedTree [DecidableEq F] [DecidableEq G] (gens : Generators G) (circuit : R1csCircuit F)
    (publicInputs : List F) (c : Tries F) (p : Nat → Nat → Nat → Proof F G) : Prop where
  start : ∀ i < gens.N, ∀ j < 3 * gens.n + 1, ∀ k < 11, (p i j k).A_I = (p 0 0 0).A_I ∧ (p i j k).A_O = (p 0 0 0).A_O ∧
    (p i j k).A_W = (p 0 0 0).A_W ∧ (p i j k).S = (p 0 0 0).S
  middle : ∀ i < gens.N, ∀ j < 3 * gens.n + 1, ∀ k < 11, tTr (p i j k) = tTr (p i j 0)
  accepted : ∀ i < gens.N, ∀ j < 3 * gens.n + 1, ∀ k < 11,
    AcceptedWith gens circuit publicInputs (p i j k) (c.y i) (c.z i j) (c.x i j k)

/-- Coefficients of the generators `g_vec_N`, `h_vec_N`, `g` and `h` that are not all zero, for which the sum is
zero. -/
def Generators.Relation (gens : Generators G) (a b : List F) (c d : F) : Prop :=
  a.length = gens.N ∧ b.length = gens.N ∧ ((∃ x ∈ a, x ≠ 0) ∨ (∃ x ∈ b, x ≠ 0) ∨ c ≠ 0 ∨ d ≠ 0) ∧
    (List.zipWith (fun x g => x • g) a gens.g_vec_N).sum + (List.zipWith (fun x g => x • g) b gens.h_vec_N).sum +
      c • gens.g + d • gens.h = 0

end Zkp.Bp
