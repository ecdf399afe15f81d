/- Extraction for Bulletproofs: from a tree of accepted proofs to an assignment or a relation. -/
import Verif.Proof.BpExtract
import Verif.Spec.BpTree

set_option linter.unusedSectionVars false
set_option linter.unusedSimpArgs false

namespace Zkp.Bp

variable {F : Type} [Field F] [DecidableEq F]
variable {G : Type} [AddCommGroup G] [Module F G]

/-- Coefficients of `g_vec`, `h_vec`, `g` and `h`. -/
abbrev Rel (F : Type) := (Nat → F) × (Nat → F) × F × F

/-- The group element with these coefficients. -/
def relVal (N : Nat) (gv hv : Nat → G) (g h : G) : Rel F →ₗ[F] G where
  toFun r := ∑ t ∈ Finset.range N, r.1 t • gv t + ∑ t ∈ Finset.range N, r.2.1 t • hv t + r.2.2.1 • g + r.2.2.2 • h
  map_add' r s := by
    simp only [Prod.fst_add, Prod.snd_add, Pi.add_apply, add_smul, Finset.sum_add_distrib]
    abel
  map_smul' c r := by
    simp only [Prod.smul_fst, Prod.smul_snd, Pi.smul_apply, smul_eq_mul, mul_smul, smul_add, Finset.smul_sum,
      RingHom.id_apply]

theorem relVal_apply (N : Nat) (gv hv : Nat → G) (g h : G) (r : Rel F) : relVal N gv hv g h r =
    ∑ t ∈ Finset.range N, r.1 t • gv t + ∑ t ∈ Finset.range N, r.2.1 t • hv t + r.2.2.1 • g + r.2.2.2 • h := rfl

/-- All coefficients are zero. -/
def RelZero (N : Nat) (r : Rel F) : Prop :=
  (∀ t < N, r.1 t = 0) ∧ (∀ t < N, r.2.1 t = 0) ∧ r.2.2.1 = 0 ∧ r.2.2.2 = 0

/-- The sizes, the entries of the combined matrix, and the public inputs. -/
structure Setting (F : Type) where
  n : Nat
  N : Nat
  k : Nat
  nw : Nat
  e : F → Nat → Nat → F
  s : List F

namespace Setting

variable (S : Setting F)

/-- Closed forms of the verifier's vectors. -/
def R (y z : F) (t : Nat) : F := (y ^ t)⁻¹ * (if t < S.n then z ^ (t + 1) * z ^ S.n else 0)
def L (z : F) (t : Nat) : F := if t < S.n then z ^ (t + 1) else 0
def O (z : F) (t : Nat) : F := if t < S.n then z ^ (t + 1) * (z ^ S.n * z ^ S.n) else 0
def V (z : F) (t : Nat) : F := -∑ a ∈ Finset.range S.n, z ^ (a + 1) * (if t < S.nw then S.e (z ^ S.n) a (t + S.k) else 0)
def const (y z : F) : F :=
  ∑ i ∈ Finset.range S.N, (y ^ i)⁻¹ * (if i < S.n then z ^ (i + 1) * z ^ S.n else 0) * (if i < S.n then z ^ (i + 1) else 0) +
    ∑ a ∈ Finset.range S.n, z ^ (a + 1) * ∑ j ∈ Finset.range S.k, S.e (z ^ S.n) a j * S.s.getD j 0

/-- What the check on `l_x`, `r_x` opens. -/
def leafP (y z x : F) (p : Shown F) : Rel F :=
  (fun t => p.l_x.getD t 0 - x ^ 2 * S.R y z t,
   fun t => (y ^ t)⁻¹ * (p.r_x.getD t 0 + x * y ^ t - x ^ 2 * S.L z t - x * S.O z t - S.V z t), 0, p.mu)

/-- What the check on `t_x` opens. -/
def leafT (y z x : F) (p : Shown F) : Rel F := (0, 0, p.t_x - x ^ 4 * S.const y z, p.tau_x)

theorem leafP_val {gens : Generators G} {v : Vectors F} {y z x : F} {p : Proof F G}
    (hv : VSpec v S.n S.N S.k S.nw S.e S.s y z)
    (hl : p.l_x.length = S.N) (hr : p.r_x.length = S.N) (h : checkP gens v p x) :
    relVal S.N (fun t => gens.g_vec_N.getD t 0) (fun t => gens.h_vec_N.getD t 0) gens.g gens.h (S.leafP y z x p.shown) =
      x ^ 2 • p.A_I + x ^ 3 • p.A_O + x ^ 4 • p.A_W + x ^ 5 • p.S := by
  unfold checkP at h
  simp only at h
  have hz : ∀ t < S.N, (List.zipWith (fun h yi => yi • h) gens.h_vec_N v.y_n_inv).getD t 0 =
      (y ^ t)⁻¹ • gens.h_vec_N.getD t 0 := by
    intro t ht
    rw [← hv.y_n_inv t ht]
    simp only [List.getD_eq_getElem?_getD, List.getElem?_zipWith]
    cases gens.h_vec_N[t]? <;> cases v.y_n_inv[t]? <;> simp
  have key : ∀ (l : List F) (f : Nat → F), l.length = S.N → (∀ t < S.N, l.getD t 0 = f t) →
      msm (List.zipWith (fun h yi => yi • h) gens.h_vec_N v.y_n_inv) l =
        ∑ t ∈ Finset.range S.N, ((y ^ t)⁻¹ * f t) • gens.h_vec_N.getD t 0 := by
    intro l f hl hf
    rw [msm_eq_sum _ _ S.N hl.le]
    refine Finset.sum_congr rfl fun t ht => ?_
    have ht := Finset.mem_range.mp ht
    rw [hz t ht, hf t ht, smul_smul, mul_comm]
  have keyg : ∀ (l : List F) (f : Nat → F), l.length = S.N → (∀ t < S.N, l.getD t 0 = f t) →
      msm gens.g_vec_N l = ∑ t ∈ Finset.range S.N, f t • gens.g_vec_N.getD t 0 := by
    intro l f hl hf
    rw [msm_eq_sum _ _ S.N hl.le]
    refine Finset.sum_congr rfl fun t ht => ?_
    rw [hf t (Finset.mem_range.mp ht)]
  rw [key (v.y_n.map fun v => -1 * v) (fun t => -(y ^ t)) (by rw [List.length_map, hv.ly]) (fun t ht => by
      have := hv.y_n t ht
      rw [List.getD_eq_getElem _ _ (by rw [hv.ly]; exact ht)] at this
      rw [List.getD_eq_getElem _ _ (by rw [List.length_map, hv.ly]; exact ht), List.getElem_map, this]
      ring),
    key v.zQ_WL (S.L z) hv.lL hv.WL, key v.zQ_WO (S.O z) hv.lO hv.WO, key v.zQ_neg_WV (S.V z) hv.lV hv.WV,
    key p.r_x _ hr (fun _ _ => rfl), keyg v.ynInvZQWR (S.R y z) hv.lyR hv.yR, keyg p.l_x _ hl (fun _ _ => rfl)] at h
  rw [relVal_apply]
  have e1 : ∑ t ∈ Finset.range S.N, (S.leafP y z x p.shown).1 t • gens.g_vec_N.getD t 0 =
      ∑ t ∈ Finset.range S.N, p.l_x.getD t 0 • gens.g_vec_N.getD t 0 -
        x ^ 2 • ∑ t ∈ Finset.range S.N, S.R y z t • gens.g_vec_N.getD t 0 := by
    rw [Finset.smul_sum, ← Finset.sum_sub_distrib]
    refine Finset.sum_congr rfl fun t _ => ?_
    simp only [leafP, Proof.shown]
    module
  have e2 : ∑ t ∈ Finset.range S.N, (S.leafP y z x p.shown).2.1 t • gens.h_vec_N.getD t 0 =
      ∑ t ∈ Finset.range S.N, ((y ^ t)⁻¹ * p.r_x.getD t 0) • gens.h_vec_N.getD t 0
      - x • ∑ t ∈ Finset.range S.N, ((y ^ t)⁻¹ * -(y ^ t)) • gens.h_vec_N.getD t 0
      - x ^ 2 • ∑ t ∈ Finset.range S.N, ((y ^ t)⁻¹ * S.L z t) • gens.h_vec_N.getD t 0
      - x • ∑ t ∈ Finset.range S.N, ((y ^ t)⁻¹ * S.O z t) • gens.h_vec_N.getD t 0
      - ∑ t ∈ Finset.range S.N, ((y ^ t)⁻¹ * S.V z t) • gens.h_vec_N.getD t 0 := by
    simp only [Finset.smul_sum, ← Finset.sum_sub_distrib]
    refine Finset.sum_congr rfl fun t _ => ?_
    simp only [leafP, Proof.shown]
    module
  rw [e1, e2]
  simp only [leafP, Proof.shown]
  generalize (∑ t ∈ Finset.range S.N, p.l_x.getD t 0 • gens.g_vec_N.getD t 0) = s1 at h ⊢
  generalize (∑ t ∈ Finset.range S.N, S.R y z t • gens.g_vec_N.getD t 0) = s2 at h ⊢
  generalize (∑ t ∈ Finset.range S.N, ((y ^ t)⁻¹ * p.r_x.getD t 0) • gens.h_vec_N.getD t 0) = s3 at h ⊢
  generalize (∑ t ∈ Finset.range S.N, ((y ^ t)⁻¹ * -(y ^ t)) • gens.h_vec_N.getD t 0) = s4 at h ⊢
  generalize (∑ t ∈ Finset.range S.N, ((y ^ t)⁻¹ * S.L z t) • gens.h_vec_N.getD t 0) = s5 at h ⊢
  generalize (∑ t ∈ Finset.range S.N, ((y ^ t)⁻¹ * S.O z t) • gens.h_vec_N.getD t 0) = s6 at h ⊢
  generalize (∑ t ∈ Finset.range S.N, ((y ^ t)⁻¹ * S.V z t) • gens.h_vec_N.getD t 0) = s7 at h ⊢
  have h' : s1 + s3 + p.mu • gens.h = (x * x) • p.A_I + (x * x * x) • p.A_O + (x * x * (x * x)) • p.A_W + x • s4 +
      (x * x) • s5 + (x * x) • s2 + x • s6 + s7 + (x * x * (x * x) * x) • p.S := by
    rw [h]; abel
  have : s1 - x ^ 2 • s2 + (s3 - x • s4 - x ^ 2 • s5 - x • s6 - s7) + (0 : F) • gens.g + p.mu • gens.h =
      (s1 + s3 + p.mu • gens.h) - x ^ 2 • s2 - x • s4 - x ^ 2 • s5 - x • s6 - s7 := by module
  rw [this, h']
  module

theorem leafT_val {gens : Generators G} {v : Vectors F} {y z x : F} {p : Proof F G}
    (hv : VSpec v S.n S.N S.k S.nw S.e S.s y z) (h : checkT gens v p x) (gv hv' : Nat → G) :
    relVal S.N gv hv' gens.g gens.h (S.leafT y z x p.shown) =
      x ^ 2 • p.T_2 + x ^ 3 • p.T_3 + x ^ 5 • p.T_5 + x ^ 6 • p.T_6 + x ^ 7 • p.T_7 + x ^ 8 • p.T_8 +
        x ^ 9 • p.T_9 + x ^ 10 • p.T_10 := by
  unfold checkT at h
  simp only at h
  rw [hv.delta, hv.zc] at h
  rw [relVal_apply]
  simp only [leafT, Proof.shown, Pi.zero_apply, zero_smul, Finset.sum_const_zero, zero_add]
  have : (p.t_x - x ^ 4 * S.const y z) • gens.g + p.tau_x • gens.h =
      (p.t_x • gens.g + p.tau_x • gens.h) - (x ^ 4 * S.const y z) • gens.g := by module
  rw [this, h]
  unfold const
  module

/-! ### Coefficients -/

variable (c : Tries F) (sh : Nat → Nat → Nat → Shown F)

/-- The coefficients of the polynomial in `x` through the openings. -/
noncomputable def C (i j m : Nat) : Rel F :=
  coef 11 (c.x i j) m fun k => S.leafP (c.y i) (c.z i j) (c.x i j k) (sh i j k)

/-- The coefficient of degree four of the opening of `t_x`. -/
noncomputable def D (i j : Nat) : Rel F :=
  coef 11 (c.x i j) 4 fun k => S.leafT (c.y i) (c.z i j) (c.x i j k) (sh i j k)

/-- The coefficients that are relations between the generators. -/
def Cand (r : Rel F) : Prop := ∃ i < S.N, ∃ j < 3 * S.n + 1,
  (∃ m < 11, (m < 2 ∨ 5 < m) ∧ r = S.C c sh i j m) ∨
  (∃ m < 11, (2 ≤ m ∧ m ≤ 5) ∧ r = S.C c sh i j m - S.C c sh 0 0 m) ∨ r = S.D c sh i j

/-- The coefficients of the commitments. -/
def comm (A B W T : G) (m : Nat) : G :=
  match m with | 2 => A | 3 => B | 4 => W | 5 => T | _ => 0

theorem cand_val {c : Tries F} {sh : Nat → Nat → Nat → Shown F} (hd : c.Distinct S.n S.N) (hN : 0 < S.N)
    (val : Rel F →ₗ[F] G) (A B W T : G) (Ts : Nat → Nat → Nat → G)
    (hP : ∀ i < S.N, ∀ j < 3 * S.n + 1, ∀ k < 11, val (S.leafP (c.y i) (c.z i j) (c.x i j k) (sh i j k)) =
      c.x i j k ^ 2 • A + c.x i j k ^ 3 • B + c.x i j k ^ 4 • W + c.x i j k ^ 5 • T)
    (hT : ∀ i < S.N, ∀ j < 3 * S.n + 1, ∀ k < 11, val (S.leafT (c.y i) (c.z i j) (c.x i j k) (sh i j k)) =
      c.x i j k ^ 2 • Ts i j 2 + c.x i j k ^ 3 • Ts i j 3 + c.x i j k ^ 5 • Ts i j 5 + c.x i j k ^ 6 • Ts i j 6 +
      c.x i j k ^ 7 • Ts i j 7 + c.x i j k ^ 8 • Ts i j 8 + c.x i j k ^ 9 • Ts i j 9 + c.x i j k ^ 10 • Ts i j 10)
    {r : Rel F} (hr : S.Cand c sh r) : val r = 0 := by
  obtain ⟨hy, hz, hx⟩ := hd
  have hC : ∀ i < S.N, ∀ j < 3 * S.n + 1, ∀ m < 11, val (S.C c sh i j m) = comm A B W T m := by
    intro i hi j hj m hm
    unfold C
    rw [coef_map]
    refine coef_of (hx i hi j hj) (fun k hk => ?_) hm
    rw [hP i hi j hj k hk]
    simp only [Finset.sum_range_succ, Finset.sum_range_zero, comm]
    module
  obtain ⟨i, hi, j, hj, h⟩ := hr
  rcases h with ⟨m, hm, hm', rfl⟩ | ⟨m, hm, hm', rfl⟩ | rfl
  · rw [hC i hi j hj m hm]
    unfold comm
    split <;> first | rfl | omega
  · rw [map_sub, hC i hi j hj m hm, hC 0 hN 0 (by omega) m hm, sub_self]
  · unfold D
    rw [coef_map]
    refine (coef_of (hx i hi j hj) (A := fun m => match m with
      | 2 => Ts i j 2 | 3 => Ts i j 3 | 5 => Ts i j 5 | 6 => Ts i j 6 | 7 => Ts i j 7 | 8 => Ts i j 8
      | 9 => Ts i j 9 | 10 => Ts i j 10 | _ => 0) (fun k hk => ?_) (by omega)).trans rfl
    rw [hT i hi j hj k hk]
    simp only [Finset.sum_range_succ, Finset.sum_range_zero]
    module

/-- The assignment that the proofs show. -/
noncomputable def _root_.Zkp.Bp.readOff (x : Nat → F) (l : Nat → List F) (nw : Nat) : List F :=
  (List.range nw).map fun t => coef 11 x 4 fun k => (l k).getD t 0

/-- If no coefficient is a relation, the values read off satisfy the constraints. -/
theorem satisfied {c : Tries F} {sh : Nat → Nat → Nat → Shown F} (hd : c.Distinct S.n S.N) (hN : 0 < S.N)
    (hn : S.n ≤ S.N) (hw : S.nw ≤ S.N) (hy0 : ∀ i < S.N, ∀ t < S.N, c.y i ^ t ≠ 0)
    (CL CR CO : Nat → Nat → F) (he : ∀ zn i j, S.e zn i j = CL i j + zn * CR i j + zn * zn * CO i j)
    (hin : ∀ i < S.N, ∀ j < 3 * S.n + 1, ∀ k < 11, (sh i j k).Inner S.N)
    (hz : ∀ r, S.Cand c sh r → RelZero S.N r) (w : List F)
    (hw' : w = readOff (c.x 0 0) (fun k => (sh 0 0 k).l_x) S.nw) :
    ∀ a < S.n,
      (∑ j ∈ Finset.range S.k, CL a j * S.s.getD j 0 + ∑ j ∈ Finset.range S.nw, CL a (j + S.k) * w.getD j 0) *
      (∑ j ∈ Finset.range S.k, CR a j * S.s.getD j 0 + ∑ j ∈ Finset.range S.nw, CR a (j + S.k) * w.getD j 0) =
      ∑ j ∈ Finset.range S.k, CO a j * S.s.getD j 0 + ∑ j ∈ Finset.range S.nw, CO a (j + S.k) * w.getD j 0 := by
  obtain ⟨hy, hz', hx⟩ := hd
  -- the coefficients
  have z1 : ∀ i < S.N, ∀ j < 3 * S.n + 1, ∀ m < 11, (m < 2 ∨ 5 < m) → RelZero S.N (S.C c sh i j m) :=
    fun i hi j hj m hm h => hz _ ⟨i, hi, j, hj, .inl ⟨m, hm, h, rfl⟩⟩
  have z2 : ∀ i < S.N, ∀ j < 3 * S.n + 1, ∀ m < 11, (2 ≤ m ∧ m ≤ 5) →
      (∀ t < S.N, (S.C c sh i j m).1 t = (S.C c sh 0 0 m).1 t) ∧
      ∀ t < S.N, (S.C c sh i j m).2.1 t = (S.C c sh 0 0 m).2.1 t := by
    intro i hi j hj m hm h
    have := hz _ ⟨i, hi, j, hj, .inr (.inl ⟨m, hm, h, rfl⟩)⟩
    exact ⟨fun t ht => sub_eq_zero.mp (this.1 t ht), fun t ht => sub_eq_zero.mp (this.2.1 t ht)⟩
  set aL : Nat → F := (S.C c sh 0 0 2).1 with haL
  set aO : Nat → F := (S.C c sh 0 0 3).1 with haO
  set aW : Nat → F := (S.C c sh 0 0 4).1 with haW
  set sL : Nat → F := (S.C c sh 0 0 5).1 with hsL
  set aR : Nat → F := (S.C c sh 0 0 2).2.1 with haR
  set b3 : Nat → F := (S.C c sh 0 0 3).2.1 with hb3
  set b4 : Nat → F := (S.C c sh 0 0 4).2.1 with hb4
  set b5 : Nat → F := (S.C c sh 0 0 5).2.1 with hb5
  have hat : ∀ i < S.N, ∀ j < 3 * S.n + 1, ∀ k < 11, ∑ m ∈ Finset.range 11, c.x i j k ^ m • S.C c sh i j m =
      S.leafP (c.y i) (c.z i j) (c.x i j k) (sh i j k) := fun i hi j hj k hk =>
    coef_at (hx i hi j hj) (fun k => S.leafP (c.y i) (c.z i j) (c.x i j k) (sh i j k)) hk
  have hl : ∀ i < S.N, ∀ j < 3 * S.n + 1, ∀ k < 11, ∀ t < S.N, (sh i j k).l_x.getD t 0 =
      c.x i j k ^ 2 * (aL t + S.R (c.y i) (c.z i j) t) + c.x i j k ^ 3 * aO t + c.x i j k ^ 4 * aW t
        + c.x i j k ^ 5 * sL t := by
    intro i hi j hj k hk t ht
    have := congrArg (fun r => r.1 t) (hat i hi j hj k hk)
    simp only [Finset.sum_range_succ, Finset.sum_range_zero, Prod.fst_add, Prod.smul_fst, Pi.add_apply, Pi.smul_apply,
      smul_eq_mul, Prod.fst_zero, Pi.zero_apply, leafP] at this
    rw [(z1 i hi j hj 0 (by omega) (by omega)).1 t ht, (z1 i hi j hj 1 (by omega) (by omega)).1 t ht,
      (z1 i hi j hj 6 (by omega) (by omega)).1 t ht, (z1 i hi j hj 7 (by omega) (by omega)).1 t ht,
      (z1 i hi j hj 8 (by omega) (by omega)).1 t ht, (z1 i hi j hj 9 (by omega) (by omega)).1 t ht,
      (z1 i hi j hj 10 (by omega) (by omega)).1 t ht,
      (z2 i hi j hj 2 (by omega) (by omega)).1 t ht, (z2 i hi j hj 3 (by omega) (by omega)).1 t ht,
      (z2 i hi j hj 4 (by omega) (by omega)).1 t ht, (z2 i hi j hj 5 (by omega) (by omega)).1 t ht] at this
    linear_combination -this
  have hr : ∀ i < S.N, ∀ j < 3 * S.n + 1, ∀ k < 11, ∀ t < S.N, (sh i j k).r_x.getD t 0 =
      S.V (c.z i j) t + c.x i j k * (-(c.y i ^ t) + S.O (c.z i j) t)
        + c.x i j k ^ 2 * (c.y i ^ t * aR t + S.L (c.z i j) t) + c.x i j k ^ 3 * (c.y i ^ t * b3 t)
        + c.x i j k ^ 4 * (c.y i ^ t * b4 t) + c.x i j k ^ 5 * (c.y i ^ t * b5 t) := by
    intro i hi j hj k hk t ht
    have := congrArg (fun r => r.2.1 t) (hat i hi j hj k hk)
    simp only [Finset.sum_range_succ, Finset.sum_range_zero, Prod.fst_add, Prod.snd_add, Prod.smul_snd, Prod.smul_fst,
      Pi.add_apply, Pi.smul_apply, smul_eq_mul, Prod.fst_zero, Prod.snd_zero, Pi.zero_apply, leafP] at this
    rw [(z1 i hi j hj 0 (by omega) (by omega)).2.1 t ht, (z1 i hi j hj 1 (by omega) (by omega)).2.1 t ht,
      (z1 i hi j hj 6 (by omega) (by omega)).2.1 t ht, (z1 i hi j hj 7 (by omega) (by omega)).2.1 t ht,
      (z1 i hi j hj 8 (by omega) (by omega)).2.1 t ht, (z1 i hi j hj 9 (by omega) (by omega)).2.1 t ht,
      (z1 i hi j hj 10 (by omega) (by omega)).2.1 t ht,
      (z2 i hi j hj 2 (by omega) (by omega)).2 t ht, (z2 i hi j hj 3 (by omega) (by omega)).2 t ht,
      (z2 i hi j hj 4 (by omega) (by omega)).2 t ht, (z2 i hi j hj 5 (by omega) (by omega)).2 t ht] at this
    have hyt : c.y i ^ t * (c.y i ^ t)⁻¹ = 1 := mul_inv_cancel₀ (hy0 i hi t ht)
    linear_combination (-(c.y i ^ t)) * this - ((sh i j k).r_x.getD t 0 + c.x i j k * c.y i ^ t -
      c.x i j k ^ 2 * S.L (c.z i j) t - c.x i j k * S.O (c.z i j) t - S.V (c.z i j) t) * hyt
  -- the values of `t_x`
  have ht : ∀ i < S.N, ∀ j < 3 * S.n + 1, coef 11 (c.x i j) 4 (fun k => (sh i j k).t_x) = S.const (c.y i) (c.z i j) := by
    intro i hi j hj
    have h0 := (hz _ ⟨i, hi, j, hj, .inr (.inr rfl)⟩).2.2.1
    have h1 := coef_map 11 (c.x i j) 4 (fun k => S.leafT (c.y i) (c.z i j) (c.x i j k) (sh i j k))
      (LinearMap.fst F F F ∘ₗ LinearMap.snd F (Nat → F) (F × F) ∘ₗ LinearMap.snd F (Nat → F) ((Nat → F) × F × F))
    have h2 : coef 11 (c.x i j) 4 (fun k => (sh i j k).t_x - c.x i j k ^ 4 * S.const (c.y i) (c.z i j)) = 0 :=
      h1.symm.trans h0
    have h3 : coef 11 (c.x i j) 4 (fun k => c.x i j k ^ 4 * S.const (c.y i) (c.z i j)) = S.const (c.y i) (c.z i j) :=
      (coef_of (hx i hi j hj) (A := fun m => if m = 4 then S.const (c.y i) (c.z i j) else 0) (fun k _ => by
        simp [Finset.sum_ite_eq']) (by omega)).trans (if_pos rfl)
    have h4 : coef 11 (c.x i j) 4 (fun k => (sh i j k).t_x - c.x i j k ^ 4 * S.const (c.y i) (c.z i j)) =
        coef 11 (c.x i j) 4 (fun k => (sh i j k).t_x) -
          coef 11 (c.x i j) 4 (fun k => c.x i j k ^ 4 * S.const (c.y i) (c.z i j)) := by
      unfold coef
      rw [← Finset.sum_sub_distrib]
      exact Finset.sum_congr rfl fun k _ => smul_sub _ _ _
    rw [h4, h3] at h2
    exact sub_eq_zero.mp h2
  have hmain : ∀ i < S.N, ∀ j < 3 * S.n + 1, ∑ t ∈ Finset.range S.N,
      ((aL t + S.R (c.y i) (c.z i j) t) * (c.y i ^ t * aR t + S.L (c.z i j) t)
        + aO t * (-(c.y i ^ t) + S.O (c.z i j) t) + aW t * S.V (c.z i j) t) = S.const (c.y i) (c.z i j) := by
    intro i hi j hj
    rw [← ht i hi j hj]
    refine (degree_four (hx i hi j hj) S.N (fun k t => (sh i j k).l_x.getD t 0) (fun k t => (sh i j k).r_x.getD t 0)
      _ _ _ _ _ _ _ _ _ _ _ (hl i hi j hj) (hr i hi j hj) fun k hk => ?_).symm
    rw [(hin i hi j hj k hk).2.2]
    exact dot_eq_sum' _ _ S.N (hin i hi j hj k hk).1.le
  have hwt : ∀ t < S.nw, w.getD t 0 = aW t := by
    intro t ht
    rw [hw', readOff, range_map_getD, if_pos ht]
    refine (coef_of (hx 0 hN 0 (by omega)) (A := fun m => match m with
      | 2 => aL t + S.R (c.y 0) (c.z 0 0) t | 3 => aO t | 4 => aW t | 5 => sL t | _ => 0) (fun k hk => ?_)
      (by omega)).trans rfl
    rw [hl 0 hN 0 (by omega) k hk t (by omega)]
    simp only [Finset.sum_range_succ, Finset.sum_range_zero, smul_eq_mul]
    ring
  have hall := all_zero hy hz' hN (fun t => aL t * aR t - aO t)
    (fun t => aL t - (∑ j ∈ Finset.range S.k, CL t j * S.s.getD j 0 + ∑ j ∈ Finset.range S.nw, CL t (j + S.k) * aW j))
    (fun t => aR t - (∑ j ∈ Finset.range S.k, CR t j * S.s.getD j 0 + ∑ j ∈ Finset.range S.nw, CR t (j + S.k) * aW j))
    (fun t => aO t - (∑ j ∈ Finset.range S.k, CO t j * S.s.getD j 0 + ∑ j ∈ Finset.range S.nw, CO t (j + S.k) * aW j))
    (fun i hi j hj => sorted S.n S.N S.k S.nw hn hw (c.y i) (c.z i j) (hy0 i hi) aL aR aO aW (fun j => S.s.getD j 0)
      CL CR CO (by
        have := hmain i hi j hj
        unfold R L O V const at this
        simp only [he] at this
        exact this))
  intro a ha
  obtain ⟨p1, p2, p3⟩ := hall.2 a ha
  have q := hall.1 a (by omega)
  have ew : ∀ M : Nat → Nat → F, ∑ j ∈ Finset.range S.nw, M a (j + S.k) * w.getD j 0 =
      ∑ j ∈ Finset.range S.nw, M a (j + S.k) * aW j := fun M =>
    Finset.sum_congr rfl fun j hj => by rw [hwt j (Finset.mem_range.mp hj)]
  rw [ew CL, ew CR, ew CO, ← sub_eq_zero.mp p1, ← sub_eq_zero.mp p2, ← sub_eq_zero.mp p3]
  exact sub_eq_zero.mp q

end Setting

end Zkp.Bp
