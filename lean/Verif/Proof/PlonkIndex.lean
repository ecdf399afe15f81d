/- What the Plonk indexer computes, and acceptance of honestly evaluated proofs. -/
import Verif.Proof.Plonk

set_option linter.unusedSectionVars false
set_option linter.unusedSimpArgs false

namespace Zkp.Plonk

open Polynomial

variable {F : Type} [Field F] [DecidableEq F]

/-- The contents of an index, for given selectors. -/
structure IndexOk (s : Selectors F) (ks : Fin 4 → F) (i : Index F) : Prop where
  valid : i.info.domain_n.Valid
  valid4 : i.domain_4n.Valid
  size : i.info.domain_n.size = s.n
  size4 : i.domain_4n.size = 4 * s.n
  ω4 : i.domain_4n.ω ^ 4 = i.info.domain_n.ω
  n : i.info.n = s.n
  ks : i.info.ks = ks
  q_0 : i.q_0 = keyPoly i.info.domain_n i.domain_4n s.q_0
  q_1 : i.q_1 = keyPoly i.info.domain_n i.domain_4n s.q_1
  q_2 : i.q_2 = keyPoly i.info.domain_n i.domain_4n s.q_2
  q_3 : i.q_3 = keyPoly i.info.domain_n i.domain_4n s.q_3
  q_m : i.q_m = keyPoly i.info.domain_n i.domain_4n s.q_m
  q_c : i.q_c = keyPoly i.info.domain_n i.domain_4n s.q_c
  q_arith : i.q_arith = keyPoly i.info.domain_n i.domain_4n s.q_arith
  sigma_0 : i.sigma_0 = keyPoly i.info.domain_n i.domain_4n s.sigma_0
  sigma_1 : i.sigma_1 = keyPoly i.info.domain_n i.domain_4n s.sigma_1
  sigma_2 : i.sigma_2 = keyPoly i.info.domain_n i.domain_4n s.sigma_2
  sigma_3 : i.sigma_3 = keyPoly i.info.domain_n i.domain_4n s.sigma_3
  l1 : i.l1_4n = onCoset i.domain_4n (firstLagrangePoly i.info.domain_n)
  v : ∀ k < i.domain_4n.size, i.v_4n_inversed.getD k 0 =
    ((i.domain_4n.g * i.domain_4n.ω ^ k) ^ i.info.domain_n.size - 1)⁻¹

theorem liftCs_ok {α : Type} {x : Except CsError α} {a : α} (h : liftCs x = .ok a) : x = .ok a := by
  cases x with
  | ok b => injection h with h; rw [h]
  | error e => cases e <;> cases h

theorem compose_n {mk : Nat → Option (Domain F)} {order : List (List Wire) → List (List Wire)} {ks : Fin 4 → F}
    {c : Composer F} {s : Selectors F} (hs : c.compose mk order ks = .ok s) :
    ∃ D0, mk c.n = some D0 ∧ s.n = D0.size := by
  unfold Composer.compose at hs
  obtain ⟨D, hD, hs⟩ := except_bind hs
  obtain ⟨t, ht, hs⟩ := except_bind hs
  injection hs with hs
  subst hs
  exact ⟨D, domain_ok hD, rfl⟩

theorem mk_pow {mk : Nat → Option (Domain F)} (hmk : MkOk mk) {D : Domain F} {k : Nat} (h : mk (2 ^ k) = some D) :
    D.size = 2 ^ k := le_antisymm (hmk.least h k le_rfl) (hmk.ge h)

theorem vanishingPoly_eq {D : Domain F} (hD : D.Valid) : vanishingPoly D = X ^ D.size - 1 := by
  ext k
  unfold vanishingPoly
  rw [polyOf_coeff, coeff_sub, coeff_X_pow, coeff_one, List.getD_eq_getElem?_getD, List.getElem?_set,
    List.length_set, List.length_replicate]
  have hp := hD.pos
  by_cases h1 : k = D.size
  · subst h1
    rw [if_pos rfl, if_pos (by omega), if_pos rfl, if_neg (by omega)]
    simp
  · rw [if_neg (fun h => h1 h.symm), if_neg h1, List.getElem?_set, List.length_replicate]
    by_cases h2 : k = 0
    · subst h2
      rw [if_pos rfl, if_pos (by omega), if_pos rfl]
      simp
    · rw [if_neg (fun h => h2 h.symm), if_neg h2, List.getElem?_replicate]
      split <;> simp

theorem coeffs_length_le {p : F[X]} {n : Nat} (h : p.natDegree < n) : (coeffs p).length ≤ n := by
  rw [coeffs_length]
  omega

theorem polyOf_coeffs (p : F[X]) : polyOf (coeffs p) = p := by
  ext k
  rw [polyOf_coeff, coeffs_getD]

theorem onCoset_getD {D : Domain F} {p : F[X]} (h : p.natDegree < D.size) {k : Nat} (hk : k < D.size) :
    (onCoset D p).getD k 0 = p.eval (D.g * D.ω ^ k) := by
  unfold onCoset
  rw [Domain.Valid.cosetFft_eq_eval _ (coeffs_length_le h) hk, polyOf_coeffs]

theorem mapM_inv {l : List F} {vi : List F} (h : l.mapM invOrPanic = .ok vi) : vi = l.map (·⁻¹) := by
  induction l generalizing vi with
  | nil => injection h with h; exact h.symm
  | cons x l ih =>
    rw [List.mapM_cons] at h
    obtain ⟨y, hy, h⟩ := except_bind h
    obtain ⟨ys, hys, h⟩ := except_bind h
    injection h with h
    subst h
    rw [ih hys, List.map_cons]
    unfold invOrPanic at hy
    split at hy
    · cases hy
    · injection hy with hy
      rw [hy]

theorem index_ok {mk : Nat → Option (Domain F)} (hmk : MkOk mk) {order : List (List Wire) → List (List Wire)}
    {ks : Fin 4 → F} {c : Composer F} {i : Index F} (h : index mk order c ks = .ok i) :
    ∃ s, c.compose mk order ks = .ok s ∧ IndexOk s ks i ∧ ∃ D0, mk c.n = some D0 ∧ s.n = D0.size ∧
      D0.ω = i.info.domain_n.ω ∧ D0.Valid := by
  unfold index at h
  obtain ⟨s, hs, h⟩ := except_bind h
  obtain ⟨D, hD, h⟩ := except_bind h
  obtain ⟨D4, hD4, h⟩ := except_bind h
  obtain ⟨vi, hvi, h⟩ := except_bind h
  have hs := liftCs_ok hs
  have hD := domain_ok (liftCs_ok hD)
  have hD4 := domain_ok (liftCs_ok hD4)
  obtain ⟨D0, h0, hn⟩ := compose_n hs
  obtain ⟨k, hk⟩ := hmk.pow h0
  rw [hn, hk] at hD hD4
  have hsz := mk_pow hmk hD
  have h4 : 4 * 2 ^ k = 2 ^ (k + 2) := by ring
  rw [h4] at hD4
  have hsz4 := mk_pow hmk hD4
  have hv := hmk.valid hD
  have hv4 := hmk.valid hD4
  have hpos : 0 < 2 ^ k := by positivity
  injection h with h
  subst h
  refine ⟨s, hs, ⟨hv, hv4, by rw [hn, hk, hsz], by rw [hn, hk, hsz4, h4], ?_, rfl, rfl, rfl, rfl, rfl, rfl, rfl, rfl,
    rfl, rfl, rfl, rfl, rfl, rfl, ?_⟩, D0, h0, hn, ?_, hmk.valid h0⟩
  · have := hmk.sub hD hD4 (by rw [hsz, hsz4, ← h4]; omega)
    rw [hsz, hsz4, ← h4, Nat.mul_div_cancel _ hpos] at this
    exact this.symm
  · intro j hj
    dsimp only at hj ⊢
    rw [mapM_inv hvi]
    have hl : (vanishingPoly D).natDegree < D4.size := by
      rw [vanishingPoly_eq hv, natDegree_eq_of_degree_eq_some (Domain.degree_vanishing hv), hsz, hsz4, ← h4]
      omega
    have hlen : j < (onCoset D4 (vanishingPoly D)).length := by unfold onCoset; simpa using hj
    rw [List.getD_eq_getElem?_getD, List.getElem?_map, List.getElem?_eq_getElem hlen]
    have := onCoset_getD hl hj
    rw [List.getD_eq_getElem?_getD, List.getElem?_eq_getElem hlen, Option.getD_some] at this
    rw [Option.map_some, Option.getD_some, this, vanishingPoly_eq hv]
    simp
  · have := hmk.sub h0 hD (by rw [hk, hsz])
    rw [hk, hsz, Nat.div_self hpos, pow_one] at this
    exact this

/-- The four permutation columns. -/
def Selectors.sigma (s : Selectors F) : Fin 4 → List F
  | 0 => s.sigma_0
  | 1 => s.sigma_1
  | 2 => s.sigma_2
  | 3 => s.sigma_3

theorem compose_perm {mk : Nat → Option (Domain F)} (hmk : MkOk mk) {order : List (List Wire) → List (List Wire)}
    (ho : ∀ l, (order l).Perm l) {ks : Fin 4 → F} {ops : List (Op F)} {c : Composer F} (h : run ops = some c)
    {s : Selectors F} (hs : c.compose mk order ks = .ok s) {D0 : Domain F} (h0 : mk c.n = some D0) :
    ∃ σ : Equiv.Perm (Fin 4 × Fin s.n),
      (∀ p, (s.sigma p.1).getD p.2.1 0 = D0.ω ^ (σ p).2.1 * ks (σ p).1) ∧
      (∀ p q, σ.SameCycle p q ↔ p = q ∨ ∃ v, c.varAt ⟨p.1, p.2.1⟩ = some v ∧ c.varAt ⟨q.1, q.2.1⟩ = some v) := by
  unfold Composer.compose at hs
  obtain ⟨D, hD, hs⟩ := except_bind hs
  obtain ⟨t, ht, hs⟩ := except_bind hs
  have hD := domain_ok hD
  rw [h0] at hD
  injection hD with hD
  subst hD
  injection hs with hs
  subst hs
  dsimp only
  obtain ⟨t', ht', hlen, σ, h1, h2, -⟩ := C41 h (hmk.ge h0) ho
  have ht := orPanic_ok ht
  rw [ht'] at ht
  injection ht with ht
  subst ht
  refine ⟨σ, ?_, h2⟩
  rintro p
  have : ∀ k : Fin 4, (⟨D0.size, c.q_0 ++ List.replicate (D0.size - c.n) 0, c.q_1 ++ List.replicate (D0.size - c.n) 0,
      c.q_2 ++ List.replicate (D0.size - c.n) 0, c.q_3 ++ List.replicate (D0.size - c.n) 0,
      c.q_m ++ List.replicate (D0.size - c.n) 0, c.q_c ++ List.replicate (D0.size - c.n) 0,
      c.q_arith ++ List.replicate (D0.size - c.n) 0, (t' 0).map (wireElement D0 ks), (t' 1).map (wireElement D0 ks),
      (t' 2).map (wireElement D0 ks), (t' 3).map (wireElement D0 ks)⟩ : Selectors F).sigma k =
        (t' k).map (wireElement D0 ks) := by
    intro k; fin_cases k <;> rfl
  rw [this, List.getD_eq_getElem?_getD, List.getElem?_map, h1 p]
  rfl

/-! ### Degrees -/

theorem interpolate_natDegree {D : Domain F} (hD : D.Valid) (v : List F) : (interpolate D v).natDegree < D.size :=
  polyOf_natDegree_lt _ hD.pos (by simp)

theorem interpolate_element {D : Domain F} (hD : D.Valid) (v : List F) {k : Nat} (hk : k < D.size) :
    (interpolate D v).eval (D.ω ^ k) = v.getD k 0 := hD.eval_ifft_element v hk

theorem IndexOk.polys_natDegree {s : Selectors F} {ks : Fin 4 → F} {i : Index F} (h : IndexOk s ks i)
    {p : String × F[X]} (hp : p ∈ i.polys) : p.2.natDegree < i.info.domain_n.size := by
  have hi : ∀ v, (keyPoly i.info.domain_n i.domain_4n v).poly.natDegree < i.info.domain_n.size :=
    fun v => interpolate_natDegree h.valid v
  unfold Index.polys at hp
  simp only [List.mem_cons, List.not_mem_nil, or_false] at hp
  rw [h.q_0, h.q_1, h.q_2, h.q_3, h.q_m, h.q_c, h.q_arith, h.sigma_0, h.sigma_1, h.sigma_2, h.sigma_3] at hp
  rcases hp with rfl | rfl | rfl | rfl | rfl | rfl | rfl | rfl | rfl | rfl | rfl <;> exact hi _

theorem natDegree_mul_le' {p q : F[X]} {a b : Nat} (hp : p.natDegree ≤ a) (hq : q.natDegree ≤ b) :
    (p * q).natDegree ≤ a + b := natDegree_mul_le.trans (add_le_add hp hq)

theorem natDegree_add_le' {p q : F[X]} {a : Nat} (hp : p.natDegree ≤ a) (hq : q.natDegree ≤ a) :
    (p + q).natDegree ≤ a := (natDegree_add_le p q).trans (max_le hp hq)

theorem natDegree_sub_le' {p q : F[X]} {a : Nat} (hp : p.natDegree ≤ a) (hq : q.natDegree ≤ a) :
    (p - q).natDegree ≤ a := (natDegree_sub_le p q).trans (max_le hp hq)

theorem natDegree_C_mul_X_le (a : F) : (C a * X).natDegree ≤ 1 := by
  simpa using natDegree_mul_le' (p := C a) (q := X) (a := 0) (b := 1) (by simp) natDegree_X_le

/-- With columns of degree less than `n` the identity has degree less than `5n`. -/
theorem checkPoly_natDegree {s : Selectors F} {ks : Fin 4 → F} {i : Index F} (h : IndexOk s ks i)
    {w0 w1 w2 w3 z pi : F[X]} (h0 : w0.natDegree < i.info.domain_n.size) (h1 : w1.natDegree < i.info.domain_n.size)
    (h2 : w2.natDegree < i.info.domain_n.size) (h3 : w3.natDegree < i.info.domain_n.size)
    (hz : z.natDegree < i.info.domain_n.size) (hpi : pi.natDegree < i.info.domain_n.size) (β γ α : F) :
    (checkPoly i w0 w1 w2 w3 z pi β γ α).natDegree < 5 * i.info.domain_n.size := by
  have hq : ∀ p ∈ i.polys, p.2.natDegree ≤ i.info.domain_n.size - 1 := by
    intro p hp
    have := h.polys_natDegree hp
    omega
  have q0 := hq ("q_0", i.q_0.poly) (by simp [Index.polys])
  have q1 := hq ("q_1", i.q_1.poly) (by simp [Index.polys])
  have q2 := hq ("q_2", i.q_2.poly) (by simp [Index.polys])
  have q3 := hq ("q_3", i.q_3.poly) (by simp [Index.polys])
  have qm := hq ("q_m", i.q_m.poly) (by simp [Index.polys])
  have qc := hq ("q_c", i.q_c.poly) (by simp [Index.polys])
  have qa := hq ("q_arith", i.q_arith.poly) (by simp [Index.polys])
  have s0 := hq ("sigma_0", i.sigma_0.poly) (by simp [Index.polys])
  have s1 := hq ("sigma_1", i.sigma_1.poly) (by simp [Index.polys])
  have s2 := hq ("sigma_2", i.sigma_2.poly) (by simp [Index.polys])
  have s3 := hq ("sigma_3", i.sigma_3.poly) (by simp [Index.polys])
  have l1 : (firstLagrangePoly i.info.domain_n).natDegree ≤ i.info.domain_n.size - 1 := by
    have := interpolate_natDegree h.valid ((List.replicate i.info.domain_n.size (0 : F)).set 0 1)
    unfold firstLagrangePoly
    omega
  dsimp only at q0 q1 q2 q3 qm qc qa s0 s1 s2 s3
  have hpos := h.valid.pos
  set n := i.info.domain_n.size with hn
  have h0' : w0.natDegree ≤ n - 1 := by omega
  have h1' : w1.natDegree ≤ n - 1 := by omega
  have h2' : w2.natDegree ≤ n - 1 := by omega
  have h3' : w3.natDegree ≤ n - 1 := by omega
  have hz' : z.natDegree ≤ n - 1 := by omega
  have hpi' : pi.natDegree ≤ n - 1 := by omega
  have hc : ∀ a : F, (C a).natDegree ≤ 0 := fun a => by simp
  have hcomp : (z.comp (C (i.info.domain_n.element 1) * X)).natDegree ≤ n - 1 := by
    refine (natDegree_comp_le).trans ?_
    calc z.natDegree * _ ≤ z.natDegree * 1 := Nat.mul_le_mul_left _ (natDegree_C_mul_X_le _)
      _ ≤ n - 1 := by omega
  have num : ∀ {w : F[X]} (k : F), w.natDegree ≤ n - 1 → (w + C k * X + C γ).natDegree ≤ n := by
    intro w k hw
    exact natDegree_add_le' (natDegree_add_le' (by omega) ((natDegree_C_mul_X_le k).trans hpos))
      ((hc γ).trans (by omega))
  have den : ∀ {w s : F[X]}, w.natDegree ≤ n - 1 → s.natDegree ≤ n - 1 → (w + C β * s + C γ).natDegree ≤ n := by
    intro w s hw hs
    exact natDegree_add_le' (natDegree_add_le' (by omega) ((natDegree_mul_le' (hc β) hs).trans (by omega)))
      ((hc γ).trans (by omega))
  have hA : (arithPoly i w0 w1 w2 w3 pi).natDegree ≤ 5 * n - 1 := by
    unfold arithPoly
    have e : (i.q_0.poly * w0 + i.q_1.poly * w1 + i.q_2.poly * w2 + i.q_3.poly * w3 + i.q_m.poly * w1 * w2
        + i.q_c.poly + pi).natDegree ≤ 4 * n - 1 :=
      natDegree_add_le' (natDegree_add_le' (natDegree_add_le' (natDegree_add_le' (natDegree_add_le'
        (natDegree_add_le' ((natDegree_mul_le' q0 h0').trans (by omega)) ((natDegree_mul_le' q1 h1').trans (by omega)))
        ((natDegree_mul_le' q2 h2').trans (by omega))) ((natDegree_mul_le' q3 h3').trans (by omega)))
        ((natDegree_mul_le' (natDegree_mul_le' qm h1') h2').trans (by omega))) (by omega)) (by omega)
    exact (natDegree_mul_le' e qa).trans (by omega)
  have hN : (numPoly i w0 w1 w2 w3 β γ * z).natDegree ≤ 5 * n - 1 := by
    unfold numPoly
    exact (natDegree_mul_le' (natDegree_mul_le' (natDegree_mul_le' (natDegree_mul_le' (num _ h0') (num _ h1'))
      (num _ h2')) (num _ h3')) hz').trans (by omega)
  have hDn : (denPoly i w0 w1 w2 w3 β γ * z.comp (C (i.info.domain_n.element 1) * X)).natDegree ≤ 5 * n - 1 := by
    unfold denPoly
    exact (natDegree_mul_le' (natDegree_mul_le' (natDegree_mul_le' (natDegree_mul_le' (den h0' s0) (den h1' s1))
      (den h2' s2)) (den h3' s3)) hcomp).trans (by omega)
  have hL : (firstLagrangePoly i.info.domain_n * (z - 1)).natDegree ≤ 5 * n - 1 :=
    (natDegree_mul_le' l1 (natDegree_sub_le' hz' (by simp))).trans (by omega)
  unfold checkPoly
  have := natDegree_add_le' (natDegree_add_le' hA ((natDegree_mul_le' (hc α) (natDegree_sub_le' hN hDn)).trans
    (show 0 + (5 * n - 1) ≤ 5 * n - 1 by omega))) ((natDegree_mul_le' (hc (α ^ 2)) hL).trans
    (show 0 + (5 * n - 1) ≤ 5 * n - 1 by omega))
  omega

/-- Values of the identity on the domain. -/
theorem checkPoly_element {s : Selectors F} {ks : Fin 4 → F} {i : Index F} (h : IndexOk s ks i)
    (w0 w1 w2 w3 z pi : F[X]) (β γ α : F) {k : Nat} (hk : k < i.info.domain_n.size) :
    (checkPoly i w0 w1 w2 w3 z pi β γ α).eval (i.info.domain_n.ω ^ k) =
      (s.q_0.getD k 0 * w0.eval (i.info.domain_n.ω ^ k) + s.q_1.getD k 0 * w1.eval (i.info.domain_n.ω ^ k)
        + s.q_2.getD k 0 * w2.eval (i.info.domain_n.ω ^ k) + s.q_3.getD k 0 * w3.eval (i.info.domain_n.ω ^ k)
        + s.q_m.getD k 0 * w1.eval (i.info.domain_n.ω ^ k) * w2.eval (i.info.domain_n.ω ^ k) + s.q_c.getD k 0
        + pi.eval (i.info.domain_n.ω ^ k)) * s.q_arith.getD k 0
      + α * ((w0.eval (i.info.domain_n.ω ^ k) + ks 0 * β * i.info.domain_n.ω ^ k + γ)
          * (w1.eval (i.info.domain_n.ω ^ k) + ks 1 * β * i.info.domain_n.ω ^ k + γ)
          * (w2.eval (i.info.domain_n.ω ^ k) + ks 2 * β * i.info.domain_n.ω ^ k + γ)
          * (w3.eval (i.info.domain_n.ω ^ k) + ks 3 * β * i.info.domain_n.ω ^ k + γ)
          * z.eval (i.info.domain_n.ω ^ k)
        - (w0.eval (i.info.domain_n.ω ^ k) + β * s.sigma_0.getD k 0 + γ)
          * (w1.eval (i.info.domain_n.ω ^ k) + β * s.sigma_1.getD k 0 + γ)
          * (w2.eval (i.info.domain_n.ω ^ k) + β * s.sigma_2.getD k 0 + γ)
          * (w3.eval (i.info.domain_n.ω ^ k) + β * s.sigma_3.getD k 0 + γ)
          * z.eval (i.info.domain_n.ω ^ (k + 1)))
      + α ^ 2 * ((if k = 0 then 1 else 0) * (z.eval (i.info.domain_n.ω ^ k) - 1)) := by
  have hi : ∀ v, (keyPoly i.info.domain_n i.domain_4n v).poly.eval (i.info.domain_n.ω ^ k) = v.getD k 0 :=
    fun v => interpolate_element h.valid v hk
  have hcomp : (z.comp (C (i.info.domain_n.element 1) * X)).eval (i.info.domain_n.ω ^ k) =
      z.eval (i.info.domain_n.ω ^ (k + 1)) := by
    rw [eval_comp, eval_mul, eval_C, eval_X]
    congr 1
    unfold Domain.element
    rw [pow_one, pow_succ, mul_comm]
  unfold checkPoly arithPoly numPoly denPoly
  simp only [eval_add, eval_mul, eval_sub, eval_C, eval_X, eval_one, hcomp]
  rw [firstLagrange_element h.valid hk, h.q_0, h.q_1, h.q_2, h.q_3, h.q_m, h.q_c, h.q_arith, h.sigma_0, h.sigma_1,
    h.sigma_2, h.sigma_3, h.ks]
  simp only [hi]

/-- If the identity holds on the domain, the quotient exists and has few coefficients. -/
theorem exists_quotient {D : Domain F} (hD : D.Valid) {N : F[X]} (hdeg : N.natDegree < 5 * D.size)
    (hz : ∀ k < D.size, N.eval (D.ω ^ k) = 0) :
    ∃ t : F[X], t.natDegree < 4 * D.size ∧ N = t * (X ^ D.size - 1) := by
  obtain ⟨t, ht, -⟩ := hD.dvd_of_zero hz
  refine ⟨t, ?_, ht⟩
  have hpos := hD.pos
  by_cases h0 : t = 0
  · rw [h0, natDegree_zero]; omega
  · have hm := Domain.monic_vanishing hD
    have := congrArg natDegree ht
    rw [natDegree_mul h0 hm.ne_zero, natDegree_eq_of_degree_eq_some (Domain.degree_vanishing hD)] at this
    omega

/-! ### Acceptance -/

theorem padToSize_ok {v : List F} {n : Nat} (h : v.length ≤ n) :
    padToSize v n = .ok (v ++ List.replicate (n - v.length) 0) := by
  unfold padToSize
  rw [if_neg (by omega)]

theorem tValue_eq {n : Nat} {ts : List F} (h : ts.length ≤ 4 * n) {m : Msgs F} (h0 : m.t0 = (quadSplit n ts).1)
    (h1 : m.t1 = (quadSplit n ts).2.1) (h2 : m.t2 = (quadSplit n ts).2.2.1) (h3 : m.t3 = (quadSplit n ts).2.2.2)
    (ζ : F) : tValue n m ζ = (polyOf ts).eval ζ := by
  rw [quadSplit_eq n ts h]
  unfold tValue
  rw [h0, h1, h2, h3]
  simp [eval_add, eval_mul]

/-- Polynomials satisfying the identity at `ζ`, honestly committed, evaluated and opened, are accepted, however
the commitments are spread over the three rounds. -/
theorem accept {pc : PC F} (hpc : pc.Complete) (rng : FsRng F pc.Comm) {i : Index F} {vk : VerifierKey F pc}
    (hvk : vk = ⟨i.polys.map fun p => pc.commit i.info.n p.2, i.polys.map (·.1), i.info.n, i.info⟩)
    (hn : i.info.n = i.info.domain_n.size) (hD : i.info.domain_n.Valid) {pi : List F}
    (hpi : pi.length ≤ i.info.domain_n.size) (m : Msgs F) {c1 c2 c3 : List pc.Comm}
    (hc : c1 ++ c2 ++ c3 = m.polys.map fun p => pc.commit i.info.n p.2)
    (hdeg : ∀ p ∈ i.polys ++ m.polys, p.2.natDegree ≤ i.info.n)
    (hζ : (challenges pc rng pi c1 c2 c3).zeta ≠ 1)
    (hid : (checkPoly i m.w0 m.w1 m.w2 m.w3 m.z
        (interpolate i.info.domain_n (pi ++ List.replicate (i.info.domain_n.size - pi.length) 0))
        (challenges pc rng pi c1 c2 c3).beta (challenges pc rng pi c1 c2 c3).gamma
        (challenges pc rng pi c1 c2 c3).alpha).eval (challenges pc rng pi c1 c2 c3).zeta =
      tValue i.info.n m (challenges pc rng pi c1 c2 c3).zeta
        * ((challenges pc rng pi c1 c2 c3).zeta ^ i.info.domain_n.size - 1)) :
    ∃ pf, finish pc rng ⟨vk, i⟩ [.seed pi, .comms c1, .comms c2, .comms c3] c1 c2 c3 (i.polys ++ m.polys)
        (challenges pc rng pi c1 c2 c3) = .ok pf ∧ pf.commitments = [c1, c2, c3] ∧
      verify pc rng vk pi pf = .ok true := by
  subst hvk
  set c := challenges pc rng pi c1 c2 c3 with hcdef
  set D := i.info.domain_n with hDdef
  have hl1 : linearCombinations i.info c (evalPolys (i.polys ++ m.polys)) = .ok (honestLcs i c m) :=
    honest_lcs hD hζ m (evalPolys_cons (l' := "w_0") (by simp [Index.polys, Msgs.polys]) _)
      (evalPolys_cons (l' := "w_1") (by simp [Index.polys, Msgs.polys]) _)
      (evalPolys_cons (l' := "w_2") (by simp [Index.polys, Msgs.polys]) _)
      (evalPolys_cons (l' := "w_3") (by simp [Index.polys, Msgs.polys]) _)
      (evalPolys_cons (l' := "z") (by simp [Index.polys, Msgs.polys]) _)
      (evalPolys_cons (l' := "sigma_0") (by simp [Index.polys, Msgs.polys]) _)
      (evalPolys_cons (l' := "sigma_1") (by simp [Index.polys, Msgs.polys]) _)
      (evalPolys_cons (l' := "sigma_2") (by simp [Index.polys, Msgs.polys]) _)
      (evalPolys_cons (l' := "q_arith") (by simp [Index.polys, Msgs.polys]) _)
  have hev := honest_evals (i := i) (c := c) m
  set qs := querySet D c.zeta with hqs
  set es := honestEvals i c m with hes
  have get : ∀ (k : Nat) (l : String) (x v : F), qs[k]? = some (l, x) → es[k]? = some v → evalMap qs es l x = some v :=
    fun k l x v h1 h2 => evalMap_get qs es l x v k h1 h2 (querySet_nodup _ _)
  have g0 := get 0 "q_arith" c.zeta _ rfl rfl
  have g1 := get 1 "r" c.zeta _ rfl rfl
  have g2 := get 2 "sigma_0" c.zeta _ rfl rfl
  have g3 := get 3 "sigma_1" c.zeta _ rfl rfl
  have g4 := get 4 "sigma_2" c.zeta _ rfl rfl
  have g5 := get 5 "t" c.zeta _ rfl rfl
  have g6 := get 6 "w_0" c.zeta _ rfl rfl
  have g7 := get 7 "w_1" c.zeta _ rfl rfl
  have g8 := get 8 "w_2" c.zeta _ rfl rfl
  have g9 := get 9 "w_3" c.zeta _ rfl rfl
  have g10 := get 10 "z" (c.zeta * D.element 1) _ rfl rfl
  have ge : ∀ {l x v}, evalMap qs es l x = some v → getEval (evalMap qs es) l x = .ok v := by
    intro l x v h
    unfold getEval
    rw [h]
  have hl2 : linearCombinations i.info c (fun lc x => getEval (evalMap qs es) lc.label x) = .ok (honestLcs i c m) :=
    honest_lcs hD hζ m (ge g6) (ge g7) (ge g8) (ge g9) (ge g10) (ge g2) (ge g3) (ge g4) (ge g0)
  refine ⟨⟨[c1, c2, c3], es, pc.openCombinations i.info.n (honestLcs i c m) (i.polys ++ m.polys) qs
    (rng [.seed pi, .comms c1, .comms c2, .comms c3, .evals es] 0)⟩, ?_, rfl, ?_⟩
  · unfold finish
    dsimp only
    rw [hl1]
    simp only [bind, Except.bind]
    rw [hev]
    rfl
  · unfold verify
    dsimp only
    unfold verifyWith
    dsimp only
    rw [← hcdef, ← hDdef, ← hqs]
    have heq : equalityCheck D c (evalMap qs es) pi = .ok true := by
      unfold equalityCheck
      rw [padToSize_ok hpi, ge g0, ge g1, ge g2, ge g3, ge g4, ge g5, ge g6, ge g7, ge g8, ge g9, ge g10,
        firstLagrange_eval hD hζ]
      simp only [bind, Except.bind]
      congr 1
      exact (final_iff i rfl c m _ _).mpr hid
    rw [heq]
    simp only [bind, Except.bind, if_true]
    rw [hl2]
    dsimp only
    have hlab : labelComms pc ⟨i.polys.map fun p => pc.commit i.info.n p.2, i.polys.map (·.1), i.info.n, i.info⟩ c1 c2 c3
        = (i.polys ++ m.polys).map fun p => (p.1, pc.commit i.info.n p.2) := by
      unfold labelComms
      dsimp only
      rw [List.append_assoc, List.append_assoc, ← List.append_assoc c1, hc]
      rfl
    rw [hlab]
    have := hpc i.info.n (honestLcs i c m) (i.polys ++ m.polys) qs (evalMap qs es)
      (rng [.seed pi, .comms c1, .comms c2, .comms c3, .evals es] 0) hdeg (labels_nodup i m) ?_
    · rw [this]; rfl
    · have hall : ∀ (k : Nat) (q : String × F), qs[k]? = some q → ∃ v, es[k]? = some v ∧
          evalQuery (honestLcs i c m) (i.polys ++ m.polys) q = .ok v := by
        clear g0 g1 g2 g3 g4 g5 g6 g7 g8 g9 g10 ge get hl2 heq hlab
        revert hev
        generalize evalQuery (honestLcs i c m) (i.polys ++ m.polys) = f
        generalize es = es'
        generalize qs = qs'
        clear hl1
        induction qs' generalizing es' with
        | nil => intro _ k q hq; simp at hq
        | cons q0 qs' ih =>
          intro hev k q hq
          rw [List.mapM_cons] at hev
          obtain ⟨v, hv, hev⟩ := except_bind hev
          obtain ⟨vs, hvs, hev⟩ := except_bind hev
          injection hev with hev
          subst hev
          cases k with
          | zero =>
            rw [List.getElem?_cons_zero] at hq
            injection hq with hq
            subst hq
            exact ⟨v, rfl, hv⟩
          | succ k =>
            rw [List.getElem?_cons_succ] at hq
            obtain ⟨v', h1, h2⟩ := ih vs hvs k q hq
            exact ⟨v', h1, h2⟩
      intro q hq
      obtain ⟨k, hk⟩ := List.mem_iff_getElem?.mp hq
      obtain ⟨v, h1, h2⟩ := hall k q hk
      exact ⟨v, h2, get k q.1 q.2 v hk h1⟩

/-! ### The indexer succeeds -/

theorem mapM_inv_ok {l : List F} (h : ∀ x ∈ l, x ≠ 0) : l.mapM invOrPanic = .ok (l.map (·⁻¹)) := by
  induction l with
  | nil => rfl
  | cons x l ih =>
    rw [List.mapM_cons, ih fun y hy => h y (by simp [hy])]
    unfold invOrPanic
    rw [if_neg (h x (by simp))]
    rfl

theorem index_success {mk : Nat → Option (Domain F)} (hmk : MkOk mk)
    {order : List (List Wire) → List (List Wire)} {ks : Fin 4 → F} {c : Composer F} {s : Selectors F}
    (hs : c.compose mk order ks = .ok s) {D D4 : Domain F} (hD : mk s.n = some D) (hD4 : mk (4 * s.n) = some D4) :
    ∃ i, index mk order c ks = .ok i := by
  obtain ⟨D0, h0, hn⟩ := compose_n hs
  obtain ⟨k, hk⟩ := hmk.pow h0
  have hv := hmk.valid hD
  have hv4 := hmk.valid hD4
  rw [hn, hk] at hD hD4
  have hsz := mk_pow hmk hD
  have h4 : 4 * 2 ^ k = 2 ^ (k + 2) := by ring
  rw [h4] at hD4
  have hsz4 := mk_pow hmk hD4
  have hpos : 0 < 2 ^ k := by positivity
  have hl : (vanishingPoly D).natDegree < D4.size := by
    rw [vanishingPoly_eq hv, natDegree_eq_of_degree_eq_some (Domain.degree_vanishing hv), hsz, hsz4, ← h4]
    omega
  have hm : (onCoset D4 (vanishingPoly D)).mapM invOrPanic = .ok ((onCoset D4 (vanishingPoly D)).map (·⁻¹)) := by
    apply mapM_inv_ok
    intro x hx
    obtain ⟨j, hj⟩ := List.mem_iff_getElem?.mp hx
    have hjl := (List.getElem?_eq_some_iff.mp hj).1
    have hj4 : j < D4.size := by unfold onCoset at hjl; simpa using hjl
    have := onCoset_getD hl hj4
    rw [List.getD_eq_getElem?_getD, hj, Option.getD_some, vanishingPoly_eq hv] at this
    rw [this]
    simp only [eval_sub, eval_pow, eval_X, eval_one]
    intro h
    have h1 := sub_eq_zero.mp h
    have h2 := hv4.coset
    apply h2
    have e : D4.size = D.size * 4 := by rw [hsz4, hsz, ← h4]; ring
    calc D4.g ^ D4.size = (D4.g * D4.ω ^ j) ^ D4.size := by
          rw [mul_pow, ← pow_mul, mul_comm j, pow_mul, hv4.ω_pow, one_pow, mul_one]
      _ = 1 := by rw [e, pow_mul, h1, one_pow]
  unfold index domain
  rw [hs]
  simp only [liftCs, bind, Except.bind]
  rw [hn, hk, hD, h4, hD4]
  dsimp only
  rw [hm]
  exact ⟨_, rfl⟩

end Zkp.Plonk
