/- Proofs about the polynomial-commitment model. -/
import Verif.Model.Kzg
import Verif.Proof.Asvc
import Mathlib.Data.List.TakeWhile

set_option linter.unusedSectionVars false
set_option linter.unusedSimpArgs false

namespace Zkp.Kzg

open Polynomial

variable {F : Type} [Field F] [DecidableEq F]
variable {G1 G2 GT : Type} [AddCommGroup G1] [AddCommGroup G2] [AddCommGroup GT]
  [Module F G1] [Module F G2] [Module F GT]

/-- The powers `β⁰g, …, βⁿ⁻¹g`. -/
def pows (β : F) (g : G1) (n : Nat) : List G1 := (List.range n).map fun i => β ^ i • g

@[simp] theorem pows_length (β : F) (g : G1) (n : Nat) : (pows β g n).length = n := by simp [pows]

theorem pows_take (β : F) (g : G1) {n m : Nat} (h : m ≤ n) : (pows β g n).take m = pows β g m := by
  unfold pows; rw [← List.map_take, List.take_range, min_eq_left h]

theorem pows_drop (β : F) (g : G1) (n m : Nat) : (pows β g n).drop m = pows β (β ^ m • g) (n - m) := by
  apply List.ext_getElem
  · simp
  · intro i h1 h2
    simp [pows, ← mul_smul, pow_add, mul_comm]

theorem pows_succ (β : F) (g : G1) (n : Nat) : ∃ l, pows β g (n + 1) = g :: l := by
  refine ⟨(List.range n).map (fun i => β ^ (i + 1) • g), ?_⟩
  simp [pows, List.range_succ_eq_map, Function.comp_def]

theorem msm_pows (β : F) (g : G1) (n : Nat) (p : F[X]) (h : p.natDegree < n) :
    msm (pows β g n) (coeffs p) = p.eval β • g := msm_powers_coeffs β g n p h

theorem msm_drop_zeros (k : Nat) : ∀ (bs : List G1) (c : List F), (∀ x ∈ c.take k, x = 0) →
    msm (bs.drop k) (c.drop k) = msm bs c := by
  induction k with
  | zero => intro bs c _; simp
  | succ k ih =>
    intro bs c h
    cases bs with
    | nil => simp [msm]
    | cons b bs =>
      cases c with
      | nil => simp [msm]
      | cons x c =>
        have hx : x = 0 := h x (by simp)
        have := ih bs c (fun y hy => h y (by simp [hy]))
        simp only [List.drop_succ_cons, this]
        simp [msm, hx]

theorem takeWhile_take {α : Type} (q : α → Bool) (l : List α) : l.take (l.takeWhile q).length = l.takeWhile q := by
  have h := List.prefix_iff_eq_take.mp (List.takeWhile_prefix (p := q) (l := l))
  exact h.symm

theorem msmSkip_ok {powers : List G1} {p : F[X]} {y : G1} (h : msmSkip powers p = .ok y) :
    y = msm powers (coeffs p) := by
  unfold msmSkip at h
  dsimp only at h
  split at h
  · cases h
  split at h
  · cases h
  injection h with h
  rw [← h]
  apply msm_drop_zeros
  intro x hx
  rw [takeWhile_take] at hx
  simpa using List.mem_takeWhile_imp hx

theorem msmSkip_spec {powers : List G1} {p : F[X]} (hp : p ≠ 0) (hl : p.natDegree ≤ powers.length) :
    msmSkip powers p = .ok (msm powers (coeffs p)) := by
  have hk : (((coeffs p).takeWhile (· = 0))).length < (coeffs p).length := by
    by_contra hcon
    have hle := (List.takeWhile_prefix (p := fun x : F => decide (x = 0)) (l := coeffs p)).length_le
    have heq : (coeffs p).takeWhile (· = 0) = coeffs p := by
      have := takeWhile_take (fun x : F => decide (x = 0)) (coeffs p)
      rw [← this, List.take_of_length_le (by omega)]
    have hm : p.leadingCoeff ∈ coeffs p := by
      unfold coeffs
      exact List.mem_map.mpr ⟨p.natDegree, by simp, rfl⟩
    rw [← heq] at hm
    exact hp (leadingCoeff_eq_zero.mp (by simpa using List.mem_takeWhile_imp hm))
  have hlen := coeffs_length p
  have h2 : ¬ powers.length < ((coeffs p).takeWhile (· = 0)).length := by omega
  cases hh : msmSkip powers p with
  | ok y => rw [msmSkip_ok hh]
  | error e =>
    exfalso
    unfold msmSkip at hh
    dsimp only at hh
    rw [if_neg (by omega), if_neg h2] at hh
    cases hh

theorem checkDegree_ok {d n : Nat} {u : Unit} : checkDegree d n = .ok u ↔ 1 ≤ d ∧ d ≤ n := by
  unfold checkDegree
  split
  · simp; omega
  split
  · simp; omega
  · simp; omega

theorem checkHidingBound_ok {d n : Nat} {u : Unit} : checkHidingBound d n = .ok u ↔ 1 ≤ d ∧ d ≤ n := by
  unfold checkHidingBound
  split
  · simp; omega
  split
  · simp; omega
  · simp; omega

theorem bind_ok {ε α β : Type} {x : Except ε α} {f : α → Except ε β} {y : β} (h : x >>= f = .ok y) :
    ∃ a, x = .ok a ∧ f a = .ok y := by
  cases x with
  | error e => cases h
  | ok a => exact ⟨a, rfl, h⟩

theorem natDegree_div (p : F[X]) (z : F) : (p / (X - C z)).natDegree = p.natDegree - 1 := by
  rw [← divByMonic_eq_div _ (monic_X_sub_C z), natDegree_divByMonic _ (monic_X_sub_C z), natDegree_X_sub_C]

theorem eval_div (p : F[X]) (z β : F) :
    p.eval β - p.eval z = (β - z) * (p / (X - C z)).eval β := by
  have h := EuclideanDomain.div_add_mod p (X - C z)
  rw [mod_X_sub_C_eq_C_eval] at h
  have h2 := congrArg (fun q => q.eval β) h
  simp only [eval_add, eval_mul, eval_sub, eval_X, eval_C] at h2
  rw [← h2]; ring

theorem div_ne_zero' {p : F[X]} (hp : 1 ≤ p.natDegree) (z : F) : p / (X - C z) ≠ 0 := by
  intro h
  have h1 := EuclideanDomain.div_add_mod p (X - C z)
  rw [mod_X_sub_C_eq_C_eval, h, mul_zero, zero_add] at h1
  rw [← h1] at hp
  simp at hp

/-! ### The single-polynomial scheme -/

/-- The check in terms of the value committed to. -/
theorem check_honest [DecidableEq GT] (e : G1 →ₗ[F] G2 →ₗ[F] GT) {vk : VerifierKey G1 G2} {β : F}
    (hβ : vk.beta_h = β • vk.h) (P R : F[X]) (z : F) {comm : G1} {proof : Proof F G1}
    (hc : comm = P.eval β • vk.g + R.eval β • vk.gamma_g)
    (hw : proof.w = (P / (X - C z)).eval β • vk.g + (R / (X - C z)).eval β • vk.gamma_g)
    (hv : proof.rand_v.getD 0 = R.eval z) :
    check e vk comm z (P.eval z) proof = true := by
  unfold check
  rw [decide_eq_true_eq]
  have hl : checkLhs vk comm (P.eval z) proof = comm - P.eval z • vk.g - R.eval z • vk.gamma_g := by
    unfold checkLhs
    split
    · rename_i hn; rw [hn] at hv; simp at hv; rw [← hv]; simp
    · rename_i ρ hn; rw [hn] at hv; simp at hv; rw [hv]
  have hP := eval_div P z β
  have hR := eval_div R z β
  have h3 : comm - P.eval z • vk.g - R.eval z • vk.gamma_g = (β - z) • proof.w := by
    rw [hc, hw]
    have : P.eval β • vk.g + R.eval β • vk.gamma_g - P.eval z • vk.g - R.eval z • vk.gamma_g
        = (P.eval β - P.eval z) • vk.g + (R.eval β - R.eval z) • vk.gamma_g := by module
    rw [this, hP, hR]; module
  rw [hl, h3, hβ, ← sub_smul]
  simp only [map_smul, LinearMap.smul_apply]

theorem commit_ok {β : F} {g γ : G1} {n m : Nat} {p : F[X]} {blind : Option (Nat × F[X])} {c : G1} {r : F[X]}
    (hb : ∀ d r, blind = some (d, r) → r.natDegree < m)
    (h : commit ⟨pows β g n, pows β γ m⟩ p blind = .ok (c, r)) :
    1 ≤ p.natDegree ∧ p.natDegree < n ∧ c = p.eval β • g + r.eval β • γ ∧
      r = (blind.map (·.2)).getD 0 ∧ ∀ d r, blind = some (d, r) → 1 ≤ d ∧ d ≤ n := by
  unfold commit at h
  split at h
  · cases h
  rename_i hn
  simp only [pows_length] at hn
  obtain ⟨_, h1, h⟩ := bind_ok h
  obtain ⟨y, h2, h⟩ := bind_ok h
  rw [checkDegree_ok] at h1
  simp only [pows_length] at h1
  have hlt : p.natDegree < n := by omega
  have hy := msmSkip_ok h2
  simp only [] at hy
  rw [msm_pows _ _ _ _ hlt] at hy
  cases hbl : blind with
  | none =>
    rw [hbl] at h
    injection h with h
    injection h with hc hr
    refine ⟨h1.1, hlt, ?_, ?_, by simp⟩
    · rw [← hc, ← hr, hy]; simp
    · rw [← hr]; simp
  | some dr =>
    obtain ⟨d, r'⟩ := dr
    rw [hbl] at h
    obtain ⟨_, h3, h⟩ := bind_ok h
    rw [checkHidingBound_ok] at h3
    simp only [pows_length] at h3
    injection h with h
    injection h with hc hr
    rw [msm_pows _ _ _ _ (hb d r' hbl)] at hc
    refine ⟨h1.1, hlt, ?_, ?_, ?_⟩
    · rw [← hc, ← hr, hy]
    · rw [← hr]; simp
    · intro d' r'' h'; injection h' with h'; injection h' with h4 h5; subst h4; exact h3

theorem commit_spec {β : F} {g γ : G1} {n m : Nat} {p : F[X]} {blind : Option (Nat × F[X])}
    (hd : 1 ≤ p.natDegree) (hn : p.natDegree < n)
    (hb : ∀ d r, blind = some (d, r) → 1 ≤ d ∧ d ≤ n) :
    ∃ c r, commit ⟨pows β g n, pows β γ m⟩ p blind = .ok (c, r) := by
  unfold commit
  rw [if_neg (by simp; omega)]
  have h1 : checkDegree p.natDegree ((pows β g n).length - 1) = .ok () := by
    rw [checkDegree_ok]; simp; omega
  have hp : p ≠ 0 := by rintro rfl; simp at hd
  have h2 := msmSkip_spec (powers := pows β g n) hp (by simp; omega)
  simp only [h1, h2]
  cases blind with
  | none => exact ⟨_, _, rfl⟩
  | some dr =>
    obtain ⟨d, r⟩ := dr
    have h3 : checkHidingBound d (pows β g n).length = .ok () := by
      rw [checkHidingBound_ok]; simpa using hb d r rfl
    refine ⟨msm (pows β g n) (coeffs p) + msm (pows β γ m) (coeffs r), r, ?_⟩
    simp only [bind, Except.bind, h3]

theorem openAt_ok {β : F} {g γ : G1} {n m : Nat} {p r : F[X]} {z : F} {proof : Proof F G1}
    (hp : p.natDegree ≤ n) (hn : 0 < n) (hr : r.natDegree ≤ m) (hm : 0 < m)
    (h : openAt ⟨pows β g n, pows β γ m⟩ p z r = .ok proof) :
    proof.w = (p / (X - C z)).eval β • g + (r / (X - C z)).eval β • γ ∧
      proof.rand_v.getD 0 = r.eval z := by
  unfold openAt at h
  obtain ⟨_, h1, h⟩ := bind_ok h
  obtain ⟨y, h2, h⟩ := bind_ok h
  rw [checkDegree_ok] at h1
  have hy := msmSkip_ok h2
  rw [msm_pows _ _ _ _ (by rw [natDegree_div]; omega)] at hy
  split at h
  · rename_i hr0
    injection h with h
    rw [← h, hy, hr0]; simp
  · injection h with h
    rw [← h, hy, msm_pows _ _ _ _ (by rw [natDegree_div]; omega)]; simp

theorem openAt_spec {β : F} {g γ : G1} {n m : Nat} {p r : F[X]} {z : F}
    (hd : 1 ≤ p.natDegree) (hp : p.natDegree ≤ n) :
    ∃ proof, openAt ⟨pows β g n, pows β γ m⟩ p z r = .ok proof := by
  unfold openAt
  have h1 : checkDegree p.natDegree (pows β g n).length = .ok () := by
    rw [checkDegree_ok]; simp; omega
  have h2 := msmSkip_spec (powers := pows β g n) (div_ne_zero' hd z) (by rw [natDegree_div]; simp; omega)
  simp only [h1, h2]
  by_cases hr : r = 0
  · refine ⟨⟨msm (pows β g n) (coeffs (p / (X - C z))), none⟩, ?_⟩
    simp only [bind, Except.bind, if_pos hr]
  · refine ⟨⟨msm (pows β g n) (coeffs (p / (X - C z))) + msm (pows β γ m) (coeffs (r / (X - C z))),
      some (r.eval z)⟩, ?_⟩
    simp only [bind, Except.bind, if_neg hr]

/-! ### Keys -/

theorem setup_trim {N s : Nat} {β : F} {g γ : G1} {h : G2} {ck : CommitterKey G1} {vk : VerifierKey G1 G2}
    (ht : trim (setup N β g γ h) s = .ok (ck, vk)) :
    s ≤ N ∧ ck = ⟨pows β g (s + 1), pows β γ (s + 1), s⟩ ∧ vk = ⟨g, γ, h, β • h, s⟩ := by
  unfold trim setup at ht
  dsimp only at ht
  change (if (pows β g (N + 1)).length = 0 then _ else if (pows β g (N + 1)).length - 1 < s then _ else
    if (pows β γ (N + 1)).length < s + 1 then _ else
      match (pows β g (N + 1)).take (s + 1), (pows β γ (N + 1)).take (s + 1) with
      | g :: gs, γ :: γs => Except.ok _
      | _, _ => _) = _ at ht
  simp only [pows_length] at ht
  split at ht
  · cases ht
  split at ht
  · cases ht
  split at ht
  · cases ht
  have hs : s ≤ N := by omega
  rw [pows_take _ _ (by omega), pows_take _ _ (by omega)] at ht
  obtain ⟨l, hl⟩ := pows_succ β g s
  obtain ⟨l', hl'⟩ := pows_succ β γ s
  rw [hl, hl'] at ht
  injection ht with ht
  injection ht with h1 h2
  exact ⟨hs, by rw [← h1, hl, hl'], h2.symm⟩

theorem setup_trim_spec {N s : Nat} (hs : s ≤ N) (β : F) (g γ : G1) (h : G2) :
    trim (setup N β g γ h) s =
      .ok (⟨pows β g (s + 1), pows β γ (s + 1), s⟩, ⟨g, γ, h, β • h, s⟩) := by
  cases ht : trim (setup N β g γ h) s with
  | ok r =>
    obtain ⟨ck, vk⟩ := r
    obtain ⟨_, h1, h2⟩ := setup_trim ht
    rw [h1, h2]
  | error e =>
    exfalso
    unfold trim setup at ht
    dsimp only at ht
    change (if (pows β g (N + 1)).length = 0 then _ else if (pows β g (N + 1)).length - 1 < s then _ else
      if (pows β γ (N + 1)).length < s + 1 then _ else
        match (pows β g (N + 1)).take (s + 1), (pows β γ (N + 1)).take (s + 1) with
        | g :: gs, γ :: γs => Except.ok _
        | _, _ => _) = _ at ht
    simp only [pows_length] at ht
    rw [if_neg (by omega), if_neg (by omega), if_neg (by omega)] at ht
    rw [pows_take _ _ (by omega), pows_take _ _ (by omega)] at ht
    obtain ⟨l, hl⟩ := pows_succ β g s
    obtain ⟨l', hl'⟩ := pows_succ β γ s
    rw [hl, hl'] at ht
    cases ht

/-! ### Lists of polynomials -/

/-- A commitment and its randomness open to the polynomial. -/
structure Commits (β : F) (g γ : G1) (s : Nat) (p : LabeledPolynomial F) (c : LabeledCommitment G1)
    (r : Randomness F) : Prop where
  label : c.label = p.label
  bound : c.degree_bound = p.degree_bound
  deg : p.polynomial.natDegree ≤ s
  rdeg : r.rand.natDegree ≤ s
  comm : c.commitment.comm = p.polynomial.eval β • g + r.rand.eval β • γ
  none : p.degree_bound = none → c.commitment.shifted_comm = none
  some : ∀ d, p.degree_bound = some d → d ≤ s ∧ p.polynomial.natDegree ≤ d ∧
    ∃ sr, r.shifted_rand = some sr ∧ sr.natDegree ≤ s ∧
      c.commitment.shifted_comm = some ((β ^ (s - d) * p.polynomial.eval β) • g + sr.eval β • γ)

theorem commitOne_commits {β : F} {g γ : G1} {s : Nat} {p : LabeledPolynomial F} {drawn : F[X] × F[X]}
    {c : LabeledCommitment G1} {r : Randomness F}
    (hb : ∀ d, p.hiding_bound = some d → drawn.1.natDegree ≤ s ∧ drawn.2.natDegree ≤ s)
    (h : commitOne ⟨pows β g (s + 1), pows β γ (s + 1), s⟩ p drawn = .ok (c, r)) :
    Commits β g γ s p c r := by
  unfold commitOne at h
  obtain ⟨⟨c1, r1⟩, h1, h⟩ := bind_ok h
  obtain ⟨sc, h2, h⟩ := bind_ok h
  injection h with h
  injection h with hc hr
  dsimp only [CommitterKey.powers] at h1
  obtain ⟨hd1, hd2, hc1, hr1, -⟩ := commit_ok (by
    intro d r' h'
    rw [Option.map_eq_some_iff] at h'
    obtain ⟨b, hb1, hb2⟩ := h'
    injection hb2 with _ hb2
    have := (hb b hb1).1
    rw [← hb2]; omega) h1
  have hrd : r1.natDegree ≤ s := by
    rw [hr1]
    cases hh : p.hiding_bound with
    | none => simp
    | some b => simpa using (hb b hh).1
  have key : ∀ d, p.degree_bound = some d → d ≤ s ∧ p.polynomial.natDegree ≤ d ∧
      ∃ sr, sr.natDegree ≤ s ∧ sc = some ((β ^ (s - d) * p.polynomial.eval β) • g + sr.eval β • γ, sr) := by
    intro d hd
    unfold commitShifted at h2
    rw [hd] at h2
    obtain ⟨pw, h3, h2⟩ := bind_ok h2
    obtain ⟨⟨c2, r2⟩, h4, h2⟩ := bind_ok h2
    injection h2 with h2
    unfold CommitterKey.shiftedPowers at h3
    dsimp only at h3
    split at h3
    · cases h3
    rename_i hds
    split at h3
    · cases h3
    injection h3 with h3
    rw [pows_drop] at h3
    rw [← h3] at h4
    have := commit_ok (by
      intro d r' h'
      rw [Option.map_eq_some_iff] at h'
      obtain ⟨b, hb1, hb2⟩ := h'
      injection hb2 with _ hb2
      have := (hb b hb1).2
      rw [← hb2]; omega) h4
    obtain ⟨_, hd2', hc2, hr2, -⟩ := this
    refine ⟨by omega, by omega, r2, ?_, ?_⟩
    · rw [hr2]
      cases hh : p.hiding_bound with
      | none => simp
      | some b => simpa using (hb b hh).2
    · rw [← h2, hc2, mul_comm, mul_smul]
  have key2 : p.degree_bound = none → sc = none := by
    intro hd
    unfold commitShifted at h2
    rw [hd] at h2
    injection h2 with h2
    exact h2.symm
  subst hc hr
  refine ⟨rfl, rfl, by omega, hrd, hc1, ?_, ?_⟩
  · intro hd; simp [key2 hd]
  · intro d hd
    obtain ⟨a, b, sr, e1, e2⟩ := key d hd
    exact ⟨a, b, sr, by simp [e2], e1, by simp [e2]⟩

/-- The invariant linking the prover's and the verifier's accumulation. -/
structure Inv (β : F) (g γ : G1) (s : Nat) (z : F) (a : F[X] × F[X] × F) (b : G1 × F × F) : Prop where
  comm : b.1 = a.1.eval β • g + a.2.1.eval β • γ
  value : b.2.1 = a.1.eval z
  chal : b.2.2 = a.2.2
  deg : a.1.natDegree ≤ s
  rdeg : a.2.1.natDegree ≤ s

theorem natDegree_add_le' {p q : F[X]} {s : Nat} (hp : p.natDegree ≤ s) (hq : q.natDegree ≤ s) :
    (p + q).natDegree ≤ s := (natDegree_add_le p q).trans (max_le hp hq)

theorem natDegree_C_mul_le' {p : F[X]} {s : Nat} (c : F) (hp : p.natDegree ≤ s) :
    (C c * p).natDegree ≤ s := (natDegree_C_mul_le c p).trans hp

theorem step_inv {β : F} {g γ : G1} {s : Nat} {z ξ : F} {a : F[X] × F[X] × F} {b : G1 × F × F}
    {p : LabeledPolynomial F} {c : LabeledCommitment G1} {r : Randomness F}
    (hI : Inv β g γ s z a b) (hc : Commits β g γ s p c r) :
    ∃ a' b', openStep s ξ a (p, r) = .ok a' ∧ accStep s z ξ b (c, p.polynomial.eval z) = .ok b' ∧
      Inv β g γ s z a' b' := by
  obtain ⟨P, R, χ⟩ := a
  obtain ⟨Cm, v, χ'⟩ := b
  obtain ⟨i1, i2, i3, i4, i5⟩ := hI
  dsimp only at i1 i2 i3 i4 i5
  subst i3
  cases hd : p.degree_bound with
  | none =>
    have hn := hc.none hd
    have hb := hc.bound.trans hd
    refine ⟨(P + C χ' * p.polynomial, R + C χ' * r.rand, χ' * ξ ^ 2),
      (Cm + χ' • c.commitment.comm, v + p.polynomial.eval z * χ', χ' * ξ ^ 2), ?_, ?_, ?_⟩
    · simp only [openStep, hd]
    · simp only [accStep, hn, hb]
    · constructor
      · simp only [i1, hc.comm, eval_add, eval_mul, eval_C]; module
      · simp only [i2, eval_add, eval_mul, eval_C]; ring
      · rfl
      · exact natDegree_add_le' i4 (natDegree_C_mul_le' _ hc.deg)
      · exact natDegree_add_le' i5 (natDegree_C_mul_le' _ hc.rdeg)
  | some d =>
    obtain ⟨hds, hpd, sr, hsr, hsd, hsc⟩ := hc.some d hd
    have hb := hc.bound.trans hd
    refine ⟨(P + C χ' * p.polynomial + C (χ' * ξ) * shiftPolynomial p.polynomial (s - d),
        R + C χ' * r.rand + C (χ' * ξ) * sr, χ' * ξ ^ 2),
      (Cm + χ' • c.commitment.comm +
        (χ' * ξ) • ((β ^ (s - d) * p.polynomial.eval β) • g + sr.eval β • γ),
        v + p.polynomial.eval z * χ' + z ^ (s - d) * p.polynomial.eval z * (χ' * ξ), χ' * ξ ^ 2), ?_, ?_, ?_⟩
    · simp only [openStep, hd, hsr]; rw [if_neg (by omega)]
    · simp only [accStep, hb, hsc]; rw [if_neg (by omega)]
    · constructor
      · simp only [i1, hc.comm, eval_add, eval_mul, eval_C, shiftPolynomial, eval_pow, eval_X]; module
      · simp only [i2, eval_add, eval_mul, eval_C, shiftPolynomial, eval_pow, eval_X]; ring
      · rfl
      · refine natDegree_add_le' (natDegree_add_le' i4 (natDegree_C_mul_le' _ hc.deg))
          (natDegree_C_mul_le' _ ?_)
        unfold shiftPolynomial
        refine natDegree_mul_le.trans ?_
        rw [natDegree_X_pow]; omega
      · exact natDegree_add_le' (natDegree_add_le' i5 (natDegree_C_mul_le' _ hc.rdeg))
          (natDegree_C_mul_le' _ hsd)

theorem fold_inv {β : F} {g γ : G1} {s : Nat} {z ξ : F}
    (ts : List (LabeledPolynomial F × LabeledCommitment G1 × Randomness F))
    (hts : ∀ t ∈ ts, Commits β g γ s t.1 t.2.1 t.2.2) :
    ∀ (a : F[X] × F[X] × F) (b : G1 × F × F), Inv β g γ s z a b →
    ∃ a' b', (ts.map fun t => (t.1, t.2.2)).foldlM (openStep s ξ) a = .ok a' ∧
      (ts.map fun t => (t.2.1, t.1.polynomial.eval z)).foldlM (accStep s z ξ) b = .ok b' ∧
      Inv β g γ s z a' b' := by
  induction ts with
  | nil => intro a b h; exact ⟨a, b, rfl, rfl, h⟩
  | cons t ts ih =>
    intro a b h
    obtain ⟨a1, b1, e1, e2, h1⟩ := step_inv (ξ := ξ) h (hts t (by simp))
    obtain ⟨a', b', f1, f2, h2⟩ := ih (fun t ht => hts t (by simp [ht])) a1 b1 h1
    refine ⟨a', b', ?_, ?_, h2⟩
    · rw [List.map_cons, List.foldlM_cons, e1]; exact f1
    · rw [List.map_cons, List.foldlM_cons, e2]; exact f2

/-- Opening honestly committed polynomials at one point: the check accepts whatever `open` returns. -/
theorem pcOpen_check [DecidableEq GT] (e : G1 →ₗ[F] G2 →ₗ[F] GT) {β : F} {g γ : G1} {h : G2} {s : Nat} {z ξ : F}
    (ts : List (LabeledPolynomial F × LabeledCommitment G1 × Randomness F))
    (hts : ∀ t ∈ ts, Commits β g γ s t.1 t.2.1 t.2.2) {proof : Proof F G1}
    (ho : pcOpen ⟨pows β g (s + 1), pows β γ (s + 1), s⟩ (ts.map (·.1)) z ξ (ts.map (·.2.2)) = .ok proof) :
    pcCheck e ⟨g, γ, h, β • h, s⟩ (ts.map (·.2.1)) z (ts.map (·.1.polynomial.eval z)) proof ξ = .ok true := by
  obtain ⟨a', b', f1, f2, hI⟩ := fold_inv (z := z) (ξ := ξ) ts hts (0, 0, 1) ((0 : G1), 0, 1)
    ⟨by simp, by simp, rfl, by simp, by simp⟩
  unfold pcOpen at ho
  have z1 : (ts.map (·.1)).zip (ts.map (·.2.2)) = ts.map fun t => (t.1, t.2.2) := by
    rw [List.zip_map']
  have z2 : (ts.map (·.2.1)).zip (ts.map (·.1.polynomial.eval z))
      = ts.map fun t => (t.2.1, t.1.polynomial.eval z) := by
    rw [List.zip_map']
  rw [z1] at ho
  dsimp only at ho
  rw [f1] at ho
  obtain ⟨_, rfl, ho⟩ : ∃ a, a = a' ∧ openAt ⟨pows β g (s + 1), pows β γ (s + 1)⟩ a.1 z a.2.1 = .ok proof :=
    ⟨a', rfl, ho⟩
  obtain ⟨hw, hv⟩ := openAt_ok (by have := hI.deg; omega) (by omega) (by have := hI.rdeg; omega) (by omega) ho
  unfold pcCheck accumulate
  rw [z2]
  dsimp only
  rw [f2]
  show Except.ok (check e _ b'.1 z b'.2.1 proof) = _
  rw [hI.value, check_honest e rfl _ _ z hI.comm hw hv]

/-! ### Batches -/

theorem mapM_ok {ε α β : Type} {f : α → Except ε β} : ∀ {l : List α} {r : List β},
    l.mapM f = .ok r ↔ List.Forall₂ (fun a b => f a = .ok b) l r := by
  intro l
  induction l with
  | nil =>
    intro r
    rw [List.mapM_nil]
    constructor
    · intro h; injection h with h; subst h; exact .nil
    · intro h; cases h; rfl
  | cons a l ih =>
    intro r
    rw [List.mapM_cons]
    constructor
    · intro h
      obtain ⟨b, h1, h⟩ := bind_ok h
      obtain ⟨bs, h2, h⟩ := bind_ok h
      injection h with h
      subst h
      exact .cons h1 (ih.mp h2)
    · intro h
      cases h with
      | cons h1 h2 => rw [h1, ih.mpr h2]; rfl

theorem pcCommit_commits {β : F} {g γ : G1} {s : Nat} :
    ∀ {ps : List (LabeledPolynomial F × F[X] × F[X])} {crs : List (LabeledCommitment G1 × Randomness F)},
    (∀ p ∈ ps, ∀ d, p.1.hiding_bound = some d → p.2.1.natDegree ≤ s ∧ p.2.2.natDegree ≤ s) →
    pcCommit ⟨pows β g (s + 1), pows β γ (s + 1), s⟩ ps = .ok crs →
    ∃ ts : List (LabeledPolynomial F × LabeledCommitment G1 × Randomness F),
      ps.map (·.1) = ts.map (·.1) ∧ crs.map (·.1) = ts.map (·.2.1) ∧ crs.map (·.2) = ts.map (·.2.2) ∧
      ∀ t ∈ ts, Commits β g γ s t.1 t.2.1 t.2.2 := by
  intro ps crs hb h
  unfold pcCommit at h
  rw [mapM_ok] at h
  induction h with
  | nil => exact ⟨[], rfl, rfl, rfl, by simp⟩
  | @cons p cr ps crs h1 _ ih =>
    obtain ⟨ts, e1, e2, e3, h2⟩ := ih (fun p hp => hb p (by simp [hp]))
    refine ⟨(p.1, cr.1, cr.2) :: ts, by simp [e1], by simp [e2], by simp [e3], ?_⟩
    intro t ht
    rcases List.mem_cons.mp ht with rfl | ht
    · exact commitOne_commits (hb p (by simp)) h1
    · exact h2 t ht

theorem lookupLast_map {α β : Type} (f : α → β) (lab : β → String) (l : List α) (x : String) :
    lookupLast lab (l.map f) x = (lookupLast (fun a => lab (f a)) l x).map f := by
  unfold lookupLast
  rw [← List.map_reverse, List.find?_map]
  rfl

theorem lookupLast_congr {α : Type} {lab lab' : α → String} {l : List α} (x : String)
    (h : ∀ a ∈ l, lab a = lab' a) : lookupLast lab l x = lookupLast lab' l x := by
  unfold lookupLast
  have h' : ∀ a ∈ l.reverse, lab a = lab' a := fun a ha => h a (by simpa using ha)
  generalize l.reverse = m at h'
  induction m with
  | nil => rfl
  | cons a m ih =>
    rw [List.find?_cons, List.find?_cons, h' a (by simp), ih (fun b hb => h' b (by simp [hb]))]

theorem lookupLast_mem {α : Type} {lab : α → String} {l : List α} {x : String} {a : α}
    (h : lookupLast lab l x = some a) : a ∈ l := by
  unfold lookupLast at h
  simpa using List.mem_of_find?_eq_some h

theorem sel_exists {α β : Type} {look : String → Option α} {f : α → β} :
    ∀ {ls : List String} {r : List β},
    List.Forall₂ (fun l b => (match (look l).map f with | some a => Except.ok a | none => .error PcError.missingPolynomial) = .ok b) ls r →
    ∃ ts : List α, r = ts.map f ∧ List.Forall₂ (fun l t => look l = some t) ls ts := by
  intro ls r h
  induction h with
  | nil => exact ⟨[], rfl, .nil⟩
  | @cons l b ls r h1 _ ih =>
    obtain ⟨ts, e, h2⟩ := ih
    cases hl : look l with
    | none => rw [hl] at h1; cases h1
    | some t =>
      rw [hl] at h1
      injection h1 with h1
      exact ⟨t :: ts, by simp [e, h1], .cons hl h2⟩

theorem checkGroup_of [DecidableEq GT] (e : G1 →ₗ[F] G2 →ₗ[F] GT) {β : F} {g γ : G1} {vk : VerifierKey G1 G2}
    {s : Nat} {ξ : F} (ts : List (LabeledPolynomial F × LabeledCommitment G1 × Randomness F))
    (hts : ∀ t ∈ ts, Commits β g γ s t.1 t.2.1 t.2.2) (values : String → F → Option F)
    (grp : F × List String)
    (hv : ∀ l ∈ grp.2, ∀ p, lookupLast LabeledPolynomial.label (ts.map (·.1)) l = some p →
      values l grp.1 = some (p.polynomial.eval grp.1)) {proof : Proof F G1}
    {us : List (LabeledPolynomial F × LabeledCommitment G1 × Randomness F)}
    (hf : List.Forall₂ (fun l t => lookupLast (fun t => t.1.label) ts l = some t) grp.2 us)
    (hcheck : pcCheck e vk (us.map (·.2.1)) grp.1 (us.map (·.1.polynomial.eval grp.1)) proof ξ = .ok true) :
    checkGroup e vk (ts.map (·.2.1)) values ξ (grp, proof) = .ok true := by
  unfold checkGroup
  have hsel : (grp.2.mapM fun l => (do
      let c ← orMissing PcError.missingPolynomial (lookupLast LabeledCommitment.label (ts.map (·.2.1)) l)
      let v ← orMissing PcError.missingEvaluation (values l grp.1)
      Except.ok (c, v) : Except PcError (LabeledCommitment G1 × F)))
      = .ok (us.map fun u => (u.2.1, u.1.polynomial.eval grp.1)) := by
    rw [mapM_ok]
    clear hcheck
    generalize grp.2 = ls at *
    induction hf with
    | nil => exact .nil
    | @cons l u ls us hl _ ih =>
      refine .cons ?_ (ih (fun l hl => hv l (by simp [hl])))
      have e1 : lookupLast LabeledCommitment.label (ts.map (·.2.1)) l = some u.2.1 := by
        rw [lookupLast_map, lookupLast_congr (lab' := fun t => t.1.label) l (fun t ht => (hts t ht).label), hl]
        rfl
      have e2 := hv l (by simp) u.1 (by rw [lookupLast_map, hl]; rfl)
      rw [e1, e2]
      rfl
  dsimp only
  rw [hsel]
  show pcCheck e _ (List.map _ (List.map _ us)) grp.1 (List.map _ (List.map _ us)) proof ξ = _
  simpa [List.map_map, Function.comp_def] using hcheck

theorem group_check [DecidableEq GT] (e : G1 →ₗ[F] G2 →ₗ[F] GT) {β : F} {g γ : G1} {h : G2} {s : Nat} {ξ : F}
    (ts : List (LabeledPolynomial F × LabeledCommitment G1 × Randomness F))
    (hts : ∀ t ∈ ts, Commits β g γ s t.1 t.2.1 t.2.2)
    (grp : F × List String) {proof : Proof F G1}
    (ho : openGroup ⟨pows β g (s + 1), pows β γ (s + 1), s⟩ (ts.map fun t => (t.1, t.2.2)) ξ grp = .ok proof) :
    ∃ us : List (LabeledPolynomial F × LabeledCommitment G1 × Randomness F),
      List.Forall₂ (fun l t => lookupLast (fun t => t.1.label) ts l = some t) grp.2 us ∧
      pcCheck e ⟨g, γ, h, β • h, s⟩ (us.map (·.2.1)) grp.1 (us.map (·.1.polynomial.eval grp.1)) proof ξ
        = .ok true := by
  unfold openGroup at ho
  obtain ⟨sel, h1, ho2⟩ := bind_ok ho
  clear ho
  rename' ho2 => ho
  rw [mapM_ok] at h1
  simp only [lookupLast_map, orMissing] at h1
  obtain ⟨us, hu, hf⟩ := sel_exists h1
  subst hu
  have hus : ∀ u ∈ us, u ∈ ts := by
    intro u hu
    obtain ⟨i, hi, rfl⟩ := List.mem_iff_getElem.mp hu
    have := List.forall₂_iff_get.mp hf
    exact lookupLast_mem (this.2 i (by rw [this.1]; exact hi) hi)
  exact ⟨us, hf, pcOpen_check e (h := h) us (fun t ht => hts t (hus t ht)) (proof := proof) (ξ := ξ) (z := grp.1)
    (by simpa [List.map_map, Function.comp_def] using ho)⟩

theorem mem_groups {qs : List (String × F)} {grp : F × List String} (h : grp ∈ groups qs) :
    ∀ l ∈ grp.2, (l, grp.1) ∈ qs := by
  unfold groups at h
  obtain ⟨z, _, rfl⟩ := List.mem_map.mp h
  intro l hl
  simp only [List.mem_dedup, List.mem_map, List.mem_filter, decide_eq_true_eq] at hl
  obtain ⟨q, ⟨h1, h2⟩, h3⟩ := hl
  subst h3
  dsimp only
  rw [← h2]; exact h1

theorem batchCheck_of [DecidableEq GT] (e : G1 →ₗ[F] G2 →ₗ[F] GT) {β : F} {g γ : G1} {vk : VerifierKey G1 G2}
    {s : Nat} {ξ : F} (ts : List (LabeledPolynomial F × LabeledCommitment G1 × Randomness F))
    (hts : ∀ t ∈ ts, Commits β g γ s t.1 t.2.1 t.2.2) (values : String → F → Option F)
    (qs : List (String × F))
    (hv : ∀ l z, (l, z) ∈ qs → ∀ p, lookupLast LabeledPolynomial.label (ts.map (·.1)) l = some p →
      values l z = some (p.polynomial.eval z)) {proofs : List (Proof F G1)}
    (ho : List.Forall₂ (fun (grp : F × List String) proof =>
      ∃ us : List (LabeledPolynomial F × LabeledCommitment G1 × Randomness F),
        List.Forall₂ (fun l t => lookupLast (fun t => t.1.label) ts l = some t) grp.2 us ∧
        pcCheck e vk (us.map (·.2.1)) grp.1 (us.map (·.1.polynomial.eval grp.1)) proof ξ = .ok true)
      (groups qs) proofs) :
    batchCheck e vk (ts.map (·.2.1)) qs values proofs ξ = .ok true := by
  unfold batchCheck
  rw [if_neg (by have := ho.length_eq; omega)]
  have : ((groups qs).zip proofs).mapM (checkGroup e vk (ts.map (·.2.1)) values ξ)
      = .ok (proofs.map fun _ => true) := by
    rw [mapM_ok]
    have hg : ∀ grp ∈ groups qs, ∀ l ∈ grp.2, (l, grp.1) ∈ qs := fun grp hgrp => mem_groups hgrp
    generalize groups qs = gs at *
    induction ho with
    | nil => exact .nil
    | @cons grp pf gs pfs h1 _ ih =>
      refine .cons ?_ (ih (fun grp hgrp => hg grp (by simp [hgrp])))
      obtain ⟨us, hf, hc⟩ := h1
      exact checkGroup_of e ts hts values grp
        (fun l hl p hp => hv l grp.1 (hg grp (by simp) l hl) p hp) hf hc
  rw [this]
  show Except.ok _ = _
  congr 1
  simp

theorem batch_check [DecidableEq GT] (e : G1 →ₗ[F] G2 →ₗ[F] GT) {β : F} {g γ : G1} {h : G2} {s : Nat} {ξ : F}
    (ts : List (LabeledPolynomial F × LabeledCommitment G1 × Randomness F))
    (hts : ∀ t ∈ ts, Commits β g γ s t.1 t.2.1 t.2.2) (values : String → F → Option F)
    (qs : List (String × F))
    (hv : ∀ l z, (l, z) ∈ qs → ∀ p, lookupLast LabeledPolynomial.label (ts.map (·.1)) l = some p →
      values l z = some (p.polynomial.eval z)) {proofs : List (Proof F G1)}
    (ho : batchOpen ⟨pows β g (s + 1), pows β γ (s + 1), s⟩ (ts.map (·.1)) qs ξ (ts.map (·.2.2)) = .ok proofs) :
    batchCheck e ⟨g, γ, h, β • h, s⟩ (ts.map (·.2.1)) qs values proofs ξ = .ok true := by
  unfold batchOpen at ho
  rw [List.zip_map', mapM_ok] at ho
  exact batchCheck_of e ts hts values qs hv (ho.imp fun grp pf hg => group_check e ts hts grp hg)

/-! ### Openings without the degree checks -/

/-- What `open` computes for the accumulated polynomials, without the degree check (for attackers and for
the analysis of `batch_open`). -/
noncomputable def rawOpen (ck : CommitterKey G1) (prs : List (LabeledPolynomial F × Randomness F)) (z ξ : F) :
    Proof F G1 :=
  match prs.foldlM (openStep ck.supported_degree ξ) (0, 0, 1) with
  | .ok s => ⟨msm ck.powers_of_g (coeffs (s.1 / (X - C z))) + msm ck.powers_of_gamma_g (coeffs (s.2.1 / (X - C z))),
      some (s.2.1.eval z)⟩
  | .error _ => ⟨0, none⟩

theorem rawOpen_check [DecidableEq GT] (e : G1 →ₗ[F] G2 →ₗ[F] GT) {β : F} {g γ : G1} {h : G2} {s : Nat} {z ξ : F}
    (ts : List (LabeledPolynomial F × LabeledCommitment G1 × Randomness F))
    (hts : ∀ t ∈ ts, Commits β g γ s t.1 t.2.1 t.2.2) :
    pcCheck e ⟨g, γ, h, β • h, s⟩ (ts.map (·.2.1)) z (ts.map (·.1.polynomial.eval z))
      (rawOpen ⟨pows β g (s + 1), pows β γ (s + 1), s⟩ (ts.map fun t => (t.1, t.2.2)) z ξ) ξ = .ok true := by
  obtain ⟨a', b', f1, f2, hI⟩ := fold_inv (z := z) (ξ := ξ) ts hts (0, 0, 1) ((0 : G1), 0, 1)
    ⟨by simp, by simp, rfl, by simp, by simp⟩
  have z2 : (ts.map (·.2.1)).zip (ts.map (·.1.polynomial.eval z))
      = ts.map fun t => (t.2.1, t.1.polynomial.eval z) := by
    rw [List.zip_map']
  unfold pcCheck accumulate
  rw [z2]
  dsimp only
  rw [f2]
  show Except.ok (check e _ b'.1 z b'.2.1 _) = _
  have hd := hI.deg
  have hr := hI.rdeg
  rw [hI.value, check_honest e rfl a'.1 a'.2.1 z hI.comm]
  · unfold rawOpen
    dsimp only
    rw [f1]
    dsimp only
    rw [msm_pows _ _ _ _ (by rw [natDegree_div]; omega), msm_pows _ _ _ _ (by rw [natDegree_div]; omega)]
  · unfold rawOpen
    dsimp only
    rw [f1]
    rfl

/-- Openings of all groups of a query set. -/
noncomputable def rawBatch (ck : CommitterKey G1) (prs : List (LabeledPolynomial F × Randomness F))
    (qs : List (String × F)) (ξ : F) : List (Proof F G1) :=
  (groups qs).map fun grp =>
    rawOpen ck (grp.2.filterMap fun l => lookupLast (fun pr => pr.1.label) prs l) grp.1 ξ

theorem filterMap_forall₂ {α β : Type} {f : α → Option β} {l : List α} (h : ∀ a ∈ l, (f a).isSome) :
    List.Forall₂ (fun a b => f a = some b) l (l.filterMap f) := by
  induction l with
  | nil => exact .nil
  | cons a l ih =>
    obtain ⟨b, hb⟩ := Option.isSome_iff_exists.mp (h a (by simp))
    rw [List.filterMap_cons_some hb]
    exact .cons hb (ih fun a ha => h a (by simp [ha]))

theorem rawBatch_check [DecidableEq GT] (e : G1 →ₗ[F] G2 →ₗ[F] GT) {β : F} {g γ : G1} {h : G2} {s : Nat} {ξ : F}
    (ts : List (LabeledPolynomial F × LabeledCommitment G1 × Randomness F))
    (hts : ∀ t ∈ ts, Commits β g γ s t.1 t.2.1 t.2.2) (values : String → F → Option F)
    (qs : List (String × F))
    (hl : ∀ l z, (l, z) ∈ qs → (lookupLast (fun t => t.1.label) ts l).isSome)
    (hv : ∀ l z, (l, z) ∈ qs → ∀ p, lookupLast LabeledPolynomial.label (ts.map (·.1)) l = some p →
      values l z = some (p.polynomial.eval z)) :
    batchCheck e ⟨g, γ, h, β • h, s⟩ (ts.map (·.2.1)) qs values
      (rawBatch ⟨pows β g (s + 1), pows β γ (s + 1), s⟩ (ts.map fun t => (t.1, t.2.2)) qs ξ) ξ = .ok true := by
  apply batchCheck_of e ts hts values qs hv
  unfold rawBatch
  rw [List.forall₂_map_right_iff, List.forall₂_same]
  intro grp hgrp
  have hsome : ∀ l ∈ grp.2, (lookupLast (fun t => t.1.label) ts l).isSome :=
    fun l hl' => hl l grp.1 (mem_groups hgrp l hl')
  have hf := filterMap_forall₂ hsome
  refine ⟨_, hf, ?_⟩
  have hus : ∀ u ∈ grp.2.filterMap (fun l => lookupLast (fun t => t.1.label) ts l), u ∈ ts := by
    intro u hu
    obtain ⟨l, _, hl⟩ := List.mem_filterMap.mp hu
    exact lookupLast_mem hl
  have := rawOpen_check e (h := h) (z := grp.1) (ξ := ξ)
    (grp.2.filterMap (fun l => lookupLast (fun t => t.1.label) ts l)) (fun t ht => hts t (hus t ht))
  have hmap : (grp.2.filterMap (fun l => lookupLast (fun t => t.1.label) ts l)).map (fun t => (t.1, t.2.2))
      = grp.2.filterMap fun l => lookupLast (fun pr => pr.1.label) (ts.map fun t => (t.1, t.2.2)) l := by
    rw [List.map_filterMap]
    congr 1
    funext l
    rw [lookupLast_map]
  rw [hmap] at this
  exact this

end Zkp.Kzg
