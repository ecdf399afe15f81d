/- C53, C56, C78: Hyrax. -/
import Verif.Proof.Hyrax
import Verif.Proof.CommitProofs
import Verif.Proof.BulletproofsComplete
import Verif.Props.LibraTables
import Verif.Props.Libra

namespace Zkp.Hx

open Zkp.Ml Zkp.Spartan Zkp.Gkr Zkp.Cp

set_option linter.unusedSectionVars false
set_option linter.unusedSimpArgs false

variable {F : Type} [Field F] {G : Type} [AddCommGroup G] [Module F G] [DecidableEq F] [DecidableEq G]

/-! ### C56 -/

/-- With at least two instances the matrix can be built for every layer whose gates refer to positions of
the two layers.

Partial: the claim includes a single instance, for which it is false (`C56_violated`). -/
theorem C56_partial (rs r0 r1 qa ql qr : List F) (gates : List Gate) (u0 u1 : F) (logN logG : Nat) (hN : 1 ≤ logN)
    (hrs : rs.length = logN) (h0 : r0.length = logG) (h1 : r1.length = logG) (hqa : qa.length = logN)
    (hq : ql.length = qr.length) (hok : ∀ t ∈ gates, t.g < 2 ^ ql.length ∧ t.left < 2 ^ logG ∧ t.right < 2 ^ logG) :
    ∃ m, constructMatrix rs r0 r1 qa ql qr gates u0 u1 logN logG = some m ∧ m.rows = logN + 2 * logG + 1 ∧
      m.cols = 4 * logN + 6 * logG + 3 := by
  obtain ⟨m, _, h1, _, h2, h3, _⟩ := matrix_rows rs r0 r1 qa ql qr gates u0 u1 logN logG hN hrs h0 h1 hqa hq hok
  exact ⟨m, h1, h2, h3⟩

example : ∃ m, constructMatrix [3] [4] [5] [6] [7, 8] [7, (8 : F17)] [⟨0, 1, 0, 1⟩, ⟨1, 0, 1, 1⟩, ⟨2, 1, 1, 1⟩] 1 0 1 1 = some m ∧
    m.rows = 4 ∧ m.cols = 13 :=
  C56_partial _ _ _ _ _ _ _ _ _ 1 1 le_rfl rfl rfl rfl rfl rfl (by simp)

/-- For a single instance the matrix is never built. -/
theorem C56_violated (rs r0 r1 qa ql qr : List F) (gates : List Gate) (u0 u1 : F) (logG : Nat) :
    constructMatrix rs r0 r1 qa ql qr gates u0 u1 0 logG = none := rfl

/-- So no proof about a single instance is accepted, whatever the circuit, the outputs and the proof. -/
theorem C56_violated_verifier (ch : Oracle F G) (params : Params G) (proof : HyraxProof F G)
    (outputs inputs : List (List F)) (hn : outputs.length = 1) (c : Circuit) (hd : 2 ≤ c.depth) (h1 h2 : F)
    (tr tr' : Transcript F G) : verify ch params proof outputs inputs c h1 h2 tr ≠ .ok ((), tr') := by
  intro h
  unfold verify at h
  obtain ⟨_, _, _, h⟩ := bind_inv h
  obtain ⟨_, _, _, h⟩ := bind_inv h
  obtain ⟨_, _, _, h⟩ := bind_inv h
  obtain ⟨_, _, _, h⟩ := bind_inv h
  obtain ⟨_, _, _, h⟩ := bind_inv h
  obtain ⟨_, _, _, h⟩ := bind_inv h
  obtain ⟨⟨result, qa, ql⟩, _, _, h⟩ := bind_inv h
  obtain ⟨_, _, _, h⟩ := bind_inv h
  obtain ⟨_, _, _, h⟩ := bind_inv h
  obtain ⟨_, _, hl, _⟩ := bind_inv h
  obtain ⟨k, hk⟩ : ∃ k, c.depth - 1 = k + 1 := ⟨c.depth - 2, by omega⟩
  rw [hk] at hl
  unfold layersVerify at hl
  obtain ⟨_, _, _, hl⟩ := bind_inv hl
  obtain ⟨_, _, _, hl⟩ := bind_inv hl
  obtain ⟨_, _, _, hl⟩ := bind_inv hl
  obtain ⟨_, _, hz, _⟩ := bind_inv hl
  unfold zkVerify at hz
  obtain ⟨_, _, _, hz⟩ := bind_inv hz
  obtain ⟨_, _, hm, _⟩ := bind_inv hz
  rw [hn, show Nat.clog 2 1 = 0 by decide] at hm
  obtain ⟨hm, _⟩ := orPanic_inv hm
  rw [C56_violated] at hm
  cases hm

example : ∃ c : Circuit, Circuit.new 1 1 [[(1, 0, 1)]] = .ok c ∧ 2 ≤ c.depth := ⟨exMul, exMul_new, by decide⟩

/-! ### C78 -/

theorem gateSum_both (gates : List Gate) (W : Gate → F) (a b : F) :
    gateSum 0 gates W * a + gateSum 1 gates W * b =
      (gates.map fun t => W t * (if t.op = 0 then a else if t.op = 1 then b else 0)).sum := by
  induction gates with
  | nil => simp [gateSum]
  | cons t gates ih =>
    rw [gateSum_cons, gateSum_cons, List.map_cons, List.sum_cons, ← ih]
    by_cases o0 : t.op = 0
    · simp [o0]; ring
    · by_cases o1 : t.op = 1
      · simp [o1]; ring
      · simp [o0, o1]

/-- The matrix expresses the round checks: a vector of all round polynomials' coefficients followed by
`x, y, z` is mapped to the claim and zeros exactly if the first round polynomial sums to the claim, each later
one sums to the value of the one before, and the last one has the value that the gates give to `x`, `y` and
`z`, where `z` stands for the product of `x` and `y`. -/
theorem C78_matrix (rs r0 r1 qa ql qr : List F) (gates : List Gate) (u0 u1 : F) (logN logG : Nat) (hN : 1 ≤ logN)
    (hrs : rs.length = logN) (h0 : r0.length = logG) (h1 : r1.length = logG) (hqa : qa.length = logN)
    (hq : ql.length = qr.length) (hok : ∀ t ∈ gates, t.g < 2 ^ ql.length ∧ t.left < 2 ^ logG ∧ t.right < 2 ^ logG)
    (m : Mat F) (hm : constructMatrix rs r0 r1 qa ql qr gates u0 u1 logN logG = some m) (claim : F) (v : Nat → F) :
    (∀ r < m.rows, ∑ k ∈ Finset.range m.cols, m.val r k * v k = if r = 0 then claim else 0) ↔
      polyEval (coef v logN 0) 0 + polyEval (coef v logN 0) 1 = claim ∧
      (∀ t, t + 1 < logN + 2 * logG → polyEval (coef v logN (t + 1)) 0 + polyEval (coef v logN (t + 1)) 1 =
        polyEval (coef v logN t) ((rs ++ r0 ++ r1).getD t 0)) ∧
      polyEval (coef v logN (logN + 2 * logG - 1)) ((rs ++ r0 ++ r1).getD (logN + 2 * logG - 1) 0) =
        (gates.map fun t => (mle ((List.range (2 ^ qa.length)).map (eqWeight qa)) rs *
          (u0 * eqWeight ql t.g + u1 * eqWeight qr t.g) * eqWeight r0 t.left * eqWeight r1 t.right) *
          (if t.op = 0 then v (4 * logN + 6 * logG) + v (4 * logN + 6 * logG + 1)
           else if t.op = 1 then v (4 * logN + 6 * logG + 2) else 0)).sum := by
  obtain ⟨m', eval0, e1, e2, e3, e4, e5, e6, e7⟩ :=
    matrix_rows rs r0 r1 qa ql qr gates u0 u1 logN logG hN hrs h0 h1 hqa hq hok
  obtain rfl : m' = m := Option.some.inj (e1.symm.trans hm)
  have hev : eval0 = mle ((List.range (2 ^ qa.length)).map (eqWeight qa)) rs := by
    have := C46_evalEqXY qa rs
    rw [if_pos (hqa.trans hrs.symm), e2] at this
    exact Option.some.inj this
  have hrow : ∀ r, ∑ k ∈ Finset.range m'.cols, m'.val r k * v k = rowDot m' (4 * logN + 6 * logG + 3) r v := fun r => by
    rw [e4, rowDot, Bp.range_map_sum]
  simp only [hrow, e3]
  have hlast := e7 v
  rw [gateSum_both] at hlast
  simp only [gateW, gWeight, hev] at hlast
  constructor
  · intro h
    refine ⟨?_, fun t ht => ?_, ?_⟩
    · rw [← e5, h 0 (by omega), if_pos rfl]
    · have := h (t + 1) (by omega)
      rw [e6 v t ht, if_neg (by omega)] at this
      exact sub_eq_zero.1 this
    · have := h (logN + 2 * logG) (by omega)
      rw [hlast, if_neg (by omega)] at this
      exact (sub_eq_zero.1 this).symm
  · rintro ⟨a1, a2, a3⟩ r hr
    rcases Nat.eq_zero_or_pos r with rfl | hr0
    · rw [e5, a1, if_pos rfl]
    · rw [if_neg (by omega)]
      by_cases hl : r = logN + 2 * logG
      · rw [hl, hlast, a3, sub_self]
      · obtain ⟨t, rfl⟩ : ∃ t, r = t + 1 := ⟨r - 1, by omega⟩
        rw [e6 v t (by omega), a2 t (by omega), sub_self]

/-- A layer with one addition and one multiplication, two instances. -/
example : ∃ m, constructMatrix [3] [4] [5] [6] [7] [(7 : F17)] [⟨0, 1, 0, 1⟩, ⟨1, 0, 1, 1⟩] 1 0 1 1 = some m := ⟨_, rfl⟩

end Zkp.Hx
