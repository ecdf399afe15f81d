/- Where Marlin's indexer and prover put the variables. -/
import Verif.Model.Marlin
import Verif.Spec.MkDomain
import Verif.Proof.Domain

set_option linter.unusedSectionVars false
set_option linter.unusedSimpArgs false

namespace Zkp.Marlin

open Polynomial

variable {F : Type} [Field F] [DecidableEq F]

/-- A subdomain of a domain. -/
structure Sub (D H : Domain F) (p : Nat) : Prop where
  dv : D.Valid
  hv : H.Valid
  size : H.size = D.size * p
  pos : 0 < p
  gen : D.ω = H.ω ^ p

theorem Sub.ratio {D H : Domain F} {p : Nat} (h : Sub D H p) : H.size / D.size = p := by
  rw [h.size, Nat.mul_div_cancel_left _ h.dv.pos]

theorem MkOk.isSub {mk : Nat → Option (Domain F)} (hmk : MkOk mk) {n m : Nat} {D H : Domain F}
    (hD : mk n = some D) (hH : mk m = some H) (hnm : n ≤ m) : ∃ p, Sub D H p := by
  obtain ⟨k, hk⟩ := hmk.pow hD
  obtain ⟨l, hl⟩ := hmk.pow hH
  have hle : D.size ≤ H.size := by
    have := hmk.ge hH
    rw [hl] at this ⊢
    exact hmk.least hD l (hnm.trans this)
  have hkl : k ≤ l := by
    rw [hk, hl] at hle
    exact (Nat.pow_le_pow_iff_right (by norm_num)).mp hle
  have hs : H.size = D.size * 2 ^ (l - k) := by
    rw [hk, hl, ← pow_add, Nat.add_sub_cancel' hkl]
  refine ⟨2 ^ (l - k), hmk.valid hD, hmk.valid hH, hs, by positivity, ?_⟩
  rw [hmk.sub hD hH hle, hs, Nat.mul_div_cancel_left _ (hmk.valid hD).pos]

theorem interpolate_eval {D : Domain F} (h : D.Valid) (v : List F) {k : Nat} (hk : k < D.size) :
    (interpolate D v).eval (D.ω ^ k) = v.getD k 0 := h.eval_ifft_element v hk

variable {D H : Domain F} {p : Nat}

theorem Sub.le (h : Sub D H p) : D.size ≤ H.size := by
  rw [h.size]; exact Nat.le_mul_of_pos_right _ h.pos

/-- The prover's vector `z` on `H`: the padded inputs on the subdomain, the padded witness elsewhere. -/
theorem zPoly_ok (h : Sub D H p) (inputs witness : List F) (r : F)
    (hfit : D.size + witness.length ≤ H.size) :
    ∃ z, zPoly H D inputs witness r = .ok z ∧ ∀ i < H.size, z.eval (H.ω ^ i) =
      if i % p = 0 then inputs.getD (i / p) 0
      else (witness ++ List.replicate (H.size - D.size - witness.length) 0).getD (i - i / p - 1) 0 := by
  set xE := H.fft (D.ifft inputs) with hxE
  have hx : ∀ i < H.size, xE.getD i 0 = (interpolate D inputs).eval (H.ω ^ i) := by
    intro i hi
    rw [hxE, Domain.Valid.fft_eq_eval _ (by rw [Domain.ifft_length]; exact h.le) hi]
    rfl
  set v : List F := (List.range H.size).map fun i =>
      if i % p = 0 then 0
      else (witness ++ List.replicate (H.size - D.size - witness.length) 0).getD (i - i / p - 1) 0
        - xE.getD i 0 with hv
  have hvok : wEvals H D xE witness = .ok v := by
    unfold wEvals
    rw [if_neg (by omega)]
    simp only [h.ratio]
    rfl
  have hvi : ∀ i < H.size, v.getD i 0 = if i % p = 0 then 0
      else (witness ++ List.replicate (H.size - D.size - witness.length) 0).getD (i - i / p - 1) 0
        - xE.getD i 0 := by
    intro i hi
    rw [hv, List.getD_eq_getElem _ _ (by simpa using hi)]
    simp only [List.getElem_map, List.getElem_range]
  set P := interpolate H v + C r * (X ^ H.size - 1) with hP
  have hPe : ∀ i < H.size, P.eval (H.ω ^ i) = v.getD i 0 := by
    intro i hi
    have h1 : ((X ^ H.size - 1 : F[X])).eval (H.ω ^ i) = 0 := by
      rw [Domain.eval_vanishing]; exact h.hv.vanishing_element i
    rw [hP, eval_add, eval_mul, h1, mul_zero, add_zero]
    exact interpolate_eval h.hv v hi
  obtain ⟨Q, hQ, -⟩ := h.dv.dvd_of_zero (P := P) (by
    intro k hk
    have hlt : p * k < H.size := by
      rw [h.size, Nat.mul_comm]; exact Nat.mul_lt_mul_of_pos_right hk h.pos
    rw [h.gen, ← pow_mul, hPe _ hlt, hvi _ hlt]
    simp)
  have hne : (X ^ D.size - 1 : F[X]) ≠ 0 := (Domain.monic_vanishing h.dv).ne_zero
  have hmod : P % (X ^ D.size - 1) = 0 := (EuclideanDomain.mod_eq_zero).mpr ⟨Q, by rw [hQ, mul_comm]⟩
  have hdiv : P / (X ^ D.size - 1) = Q := by
    rw [hQ]; exact mul_div_cancel_right₀ _ hne
  refine ⟨Q * (X ^ D.size - 1) + interpolate D inputs, ?_, ?_⟩
  · unfold zPoly wPoly
    rw [hvok]
    simp only [bind, Except.bind]
    rw [if_pos hmod, hdiv]
  · intro i hi
    rw [← hQ, eval_add, hPe i hi, hvi i hi]
    split
    · rename_i h0
      obtain ⟨k, rfl⟩ := Nat.dvd_of_mod_eq_zero h0
      have hk : k < D.size := by
        rw [h.size, Nat.mul_comm] at hi
        exact lt_of_mul_lt_mul_right hi (Nat.zero_le _)
      rw [pow_mul, ← h.gen, interpolate_eval h.dv _ hk, Nat.mul_div_cancel_left _ h.pos, zero_add]
    · rw [hx i hi]; ring

/-- The prover aborts if the witness does not fit beside the input domain. -/
theorem zPoly_panic (inputs witness : List F) (r : F) (hfit : H.size < D.size + witness.length) :
    zPoly H D inputs witness r = .error .panic := by
  unfold zPoly wPoly wEvals
  rw [if_pos hfit]
  rfl

/-- The position of a column in the full case. -/
theorem pos_arith {p i : Nat} (hp : 2 ≤ p) :
    (i + i / (p - 1) + 1) / p = i / (p - 1) ∧ (i + i / (p - 1) + 1) % p = i % (p - 1) + 1 := by
  have h1 := Nat.div_add_mod i (p - 1)
  have h2 : i % (p - 1) < p - 1 := Nat.mod_lt _ (by omega)
  set a := i / (p - 1)
  set b := i % (p - 1)
  have h3 : i + a + 1 = (b + 1) + p * a := by
    rw [← h1]
    obtain ⟨q, rfl⟩ : ∃ q, p = q + 1 := ⟨p - 1, by omega⟩
    simp only [Nat.add_sub_cancel]
    ring
  rw [h3]
  constructor
  · rw [Nat.add_mul_div_left _ _ (by omega), Nat.div_eq_of_lt (by omega), Nat.zero_add]
  · rw [Nat.add_mul_mod_self_left, Nat.mod_eq_of_lt (by omega)]

/-- The position of a column, if it has one. -/
theorem reindex_spec (h : Sub D H p) {j : Nat} (hj : j < H.size) :
    ∃ q, reindexBySubdomain H.size D.size j = .ok q ∧ q < H.size ∧
      (j < D.size → q = p * j) ∧
      (D.size ≤ j → q % p ≠ 0 ∧ q - q / p - 1 = j - D.size) := by
  have hle := h.le
  have hpos := h.dv.pos
  unfold reindexBySubdomain
  rw [if_neg (by omega)]
  simp only [h.ratio]
  by_cases hjd : j < D.size
  · rw [if_pos hjd]
    refine ⟨j * p, rfl, ?_, fun _ => Nat.mul_comm _ _, fun h => by omega⟩
    rw [h.size]; exact Nat.mul_lt_mul_of_pos_right hjd h.pos
  · rw [if_neg hjd]
    have hp2 : 2 ≤ p := by
      by_contra hcon
      have : p = 1 := by have := h.pos; omega
      have := h.size
      simp_all
    rw [if_neg (by omega)]
    obtain ⟨e1, e2⟩ := pos_arith (p := p) (i := j - D.size) hp2
    set i := j - D.size with hi
    refine ⟨_, rfl, ?_, fun h => by omega, fun _ => ⟨by omega, ?_⟩⟩
    · have ha : i / (p - 1) < D.size := by
        rw [Nat.div_lt_iff_lt_mul (by omega)]
        have : D.size * (p - 1) = H.size - D.size := by rw [h.size, Nat.mul_sub_one]
        omega
      rw [h.size]
      rw [← Nat.div_lt_iff_lt_mul (by omega), e1]
      exact ha
    · rw [e1]; omega

end Zkp.Marlin
