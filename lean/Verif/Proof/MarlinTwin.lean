/- Two runs of Marlin's prover on different assignments of the same circuit, with coins moved so that both
give the same proof. -/
import Verif.Proof.KzgTwin
import Verif.Proof.MarlinHonest
import Verif.Spec.MarlinHiding

set_option linter.unusedSectionVars false
set_option linter.unusedSimpArgs false

namespace Zkp.Marlin

open Polynomial

variable {F : Type} [Field F] [DecidableEq F]
variable {G1 G2 GT : Type} [AddCommGroup G1] [AddCommGroup G2] [AddCommGroup GT]
  [Module F G1] [Module F G2] [Module F GT]

/-! ### Moving the coins -/

/-- The interpolants of one assignment: `w·v_X` without blinding, `z_a` and `z_b`. -/
structure Side (F : Type) [Field F] where
  I : F[X]
  a : F[X]
  b : F[X]

/-- What is fixed by the key and the challenges: the point `z`, the trapdoor `τ`, the multiple `k` of `γ`
that is `g`, the shift of the bounded commitment, the sizes of the domains, and the polynomials `r` and `t`. -/
structure Frame (F : Type) [Field F] where
  z : F
  τ : F
  k : F
  sh : Nat
  n : Nat
  nD : Nat
  m : FirstMsg F
  r : F[X]
  t : F[X]

noncomputable def blind (n : Nat) (p : F[X]) (x : F) : F[X] := p + C x * (X ^ n - 1)

noncomputable def Frame.q (f : Frame F) (S : Side F) (w za zb : F) : F[X] :=
  f.r * (C f.m.eta_a * blind f.n S.a za + C f.m.eta_b * blind f.n S.b zb
    + C f.m.eta_c * (blind f.n S.a za * blind f.n S.b zb)) - f.t * blind f.n S.I w

noncomputable def Frame.w (f : Frame F) (S : Side F) (w : F) : F[X] := blind f.n S.I w / (X ^ f.nD - 1)

noncomputable def Frame.shift (f : Frame F) (p p' : F[X]) : F := (p.eval f.z - p'.eval f.z) / (f.z ^ f.n - 1)

noncomputable def Frame.D (f : Frame F) (S S' : Side F) (w za zb : F) : F[X] :=
  f.q S w za zb - f.q S' (w + f.shift S.I S'.I) (za + f.shift S.a S'.a) (zb + f.shift S.b S'.b)

noncomputable def Frame.c0 (f : Frame F) (S S' : Side F) (w za zb : F) : F :=
  - (f.D S S' w za zb).eval f.τ / (f.τ * (f.τ - f.z))

noncomputable def Frame.E (f : Frame F) (c0 : F) : F[X] := C c0 * (X * (X - C f.z))

/-- The multiple of `X - z` added to a blinding polynomial. -/
noncomputable def Frame.e1 (f : Frame F) (S S' : Side F) (w za zb : F) (l : String) : F :=
  if l = "w" then f.k * ((f.w S w).eval f.τ - (f.w S' (w + f.shift S.I S'.I)).eval f.τ) / (f.τ - f.z)
  else if l = "z_a" then
    f.k * ((blind f.n S.a za).eval f.τ - (blind f.n S'.a (za + f.shift S.a S'.a)).eval f.τ) / (f.τ - f.z)
  else if l = "z_b" then
    f.k * ((blind f.n S.b zb).eval f.τ - (blind f.n S'.b (zb + f.shift S.b S'.b)).eval f.τ) / (f.τ - f.z)
  else if l = "g_1" then - (f.k * f.c0 S S' w za zb)
  else 0

noncomputable def Frame.e2 (f : Frame F) (S S' : Side F) (w za zb : F) (l : String) : F :=
  if l = "g_1" then - (f.k * f.τ ^ f.sh * f.c0 S S' w za zb) else 0

noncomputable def Frame.move (f : Frame F) (S S' : Side F) (c : Coins F) : Coins F where
  w := c.w + f.shift S.I S'.I
  za := c.za + f.shift S.a S'.a
  zb := c.zb + f.shift S.b S'.b
  mask := c.mask + f.D S S' c.w c.za c.zb + f.E (f.c0 S S' c.w c.za c.zb)
  hide := fun l => ((c.hide l).1 + C (f.e1 S S' c.w c.za c.zb l) * (X - C f.z),
    (c.hide l).2 + C (f.e2 S S' c.w c.za c.zb l) * (X - C f.z))

theorem Frame.shift_neg (f : Frame F) (p p' : F[X]) : f.shift p' p = - f.shift p p' := by
  unfold Frame.shift; ring

theorem Frame.D_neg (f : Frame F) (S S' : Side F) (w za zb : F) :
    f.D S' S (w + f.shift S.I S'.I) (za + f.shift S.a S'.a) (zb + f.shift S.b S'.b) = - f.D S S' w za zb := by
  unfold Frame.D
  rw [f.shift_neg S.I, f.shift_neg S.a, f.shift_neg S.b]
  simp only [add_neg_cancel_right]
  ring

theorem Frame.c0_neg (f : Frame F) (S S' : Side F) (w za zb : F) :
    f.c0 S' S (w + f.shift S.I S'.I) (za + f.shift S.a S'.a) (zb + f.shift S.b S'.b) = - f.c0 S S' w za zb := by
  unfold Frame.c0
  rw [f.D_neg, eval_neg]
  ring

theorem Frame.e1_neg (f : Frame F) (S S' : Side F) (w za zb : F) (l : String) :
    f.e1 S' S (w + f.shift S.I S'.I) (za + f.shift S.a S'.a) (zb + f.shift S.b S'.b) l = - f.e1 S S' w za zb l := by
  unfold Frame.e1
  rw [f.c0_neg, f.shift_neg S.I, f.shift_neg S.a, f.shift_neg S.b]
  simp only [add_neg_cancel_right]
  split
  · ring
  split
  · ring
  split
  · ring
  split
  · ring
  · simp

theorem Frame.e2_neg (f : Frame F) (S S' : Side F) (w za zb : F) (l : String) :
    f.e2 S' S (w + f.shift S.I S'.I) (za + f.shift S.a S'.a) (zb + f.shift S.b S'.b) l = - f.e2 S S' w za zb l := by
  unfold Frame.e2
  rw [f.c0_neg]
  split
  · ring
  · simp

theorem Frame.move_move (f : Frame F) (S S' : Side F) (c : Coins F) : f.move S' S (f.move S S' c) = c := by
  obtain ⟨w, za, zb, mask, hide⟩ := c
  unfold Frame.move
  dsimp only
  rw [f.D_neg, f.c0_neg, f.shift_neg S.I, f.shift_neg S.a, f.shift_neg S.b]
  simp only [add_neg_cancel_right]
  congr 1
  · unfold Frame.E
    rw [C_neg]
    ring
  · funext l
    have e := f.e1_neg S S' w za zb l
    have e' := f.e2_neg S S' w za zb l
    rw [e, e', C_neg, C_neg]
    refine Prod.ext ?_ ?_
    · dsimp only; ring
    · dsimp only; ring

/-- Moving the coins, as a bijection. -/
noncomputable def Frame.equiv (f : Frame F) (S S' : Side F) : Coins F ≃ Coins F where
  toFun := f.move S S'
  invFun := f.move S' S
  left_inv := f.move_move S S'
  right_inv := f.move_move S' S

theorem blind_degree {n : Nat} {p : F[X]} (hp : p.degree < n) (x : F) :
    (blind n p x).natDegree ≤ n := by
  unfold blind
  refine (natDegree_add_le _ _).trans (max_le ?_ ?_)
  · exact natDegree_le_of_degree_le hp.le
  · refine (natDegree_C_mul_le _ _).trans ?_
    rw [← C_1, natDegree_X_pow_sub_C]

/-- Degrees of the fixed polynomials. -/
structure Frame.Low (f : Frame F) : Prop where
  n : 3 ≤ f.n
  r : f.r.natDegree < f.n
  t : f.t.natDegree < f.n

structure Side.Low (n : Nat) (S : Side F) : Prop where
  I : S.I.degree < n
  a : S.a.degree < n
  b : S.b.degree < n

theorem Frame.q_degree {f : Frame F} (hf : f.Low) {S : Side F} (hS : S.Low f.n) (w za zb : F) :
    (f.q S w za zb).natDegree < 3 * f.n := by
  have hn := hf.n
  have h1 := hf.r
  have h2 := hf.t
  have bI := blind_degree hS.I w
  have ba := blind_degree hS.a za
  have bb := blind_degree hS.b zb
  unfold Frame.q
  refine (natDegree_sub_le _ _).trans_lt (max_lt ?_ ?_)
  · refine (natDegree_mul_le).trans_lt ?_
    have : (C f.m.eta_a * blind f.n S.a za + C f.m.eta_b * blind f.n S.b zb
        + C f.m.eta_c * (blind f.n S.a za * blind f.n S.b zb)).natDegree ≤ 2 * f.n := by
      refine (natDegree_add_le _ _).trans (max_le ((natDegree_add_le _ _).trans (max_le ?_ ?_)) ?_)
      · exact (natDegree_C_mul_le _ _).trans (by omega)
      · exact (natDegree_C_mul_le _ _).trans (by omega)
      · exact (natDegree_C_mul_le _ _).trans (natDegree_mul_le.trans (by omega))
    omega
  · exact natDegree_mul_le.trans_lt (by omega)

theorem Frame.move_drawn {f : Frame F} (hf : f.Low) {S S' : Side F} (hS : S.Low f.n) (hS' : S'.Low f.n)
    {c : Coins F} (hc : Drawn f.n c) : Drawn f.n (f.move S S' c) := by
  have hn := hf.n
  obtain ⟨h1, h2⟩ := hc
  have lin : ∀ x : F, (C x * (X - C f.z)).natDegree ≤ 1 := fun x =>
    (natDegree_C_mul_le _ _).trans (natDegree_X_sub_C_le _)
  refine ⟨?_, fun l => ⟨?_, ?_⟩⟩
  · unfold Frame.move
    dsimp only
    have up : ∀ p : F[X], p.natDegree < 3 * f.n → p.degree < (3 * f.n : Nat) := fun p hp =>
      degree_le_natDegree.trans_lt (by exact_mod_cast hp)
    refine (degree_add_le _ _).trans_lt (max_lt ((degree_add_le _ _).trans_lt (max_lt h1 ?_)) ?_)
    · refine up _ ?_
      unfold Frame.D
      exact (natDegree_sub_le _ _).trans_lt (max_lt (f.q_degree hf hS _ _ _) (f.q_degree hf hS' _ _ _))
    · refine up _ ?_
      unfold Frame.E
      refine (natDegree_C_mul_le _ _).trans_lt (natDegree_mul_le.trans_lt ?_)
      have := natDegree_X_sub_C_le f.z
      have := natDegree_X_le (R := F)
      omega
  · exact (natDegree_add_le _ _).trans (max_le (h2 l).1 (lin _))
  · exact (natDegree_add_le _ _).trans (max_le (h2 l).2 (lin _))

theorem Frame.equiv_drawn {f : Frame F} (hf : f.Low) {S S' : Side F} (hS : S.Low f.n) (hS' : S'.Low f.n)
    (c : Coins F) : Drawn f.n c ↔ Drawn f.n (f.equiv S S' c) := by
  refine ⟨fun h => f.move_drawn hf hS hS' h, fun h => ?_⟩
  have := f.move_drawn hf hS' hS h
  rwa [show f.move S' S (f.equiv S S' c) = c from f.move_move S S' c] at this

/-! ### What the moved coins keep -/

/-- The conditions on the challenges. -/
structure Frame.Fine (f : Frame F) : Prop where
  n : 3 ≤ f.n
  v : f.z ^ f.n - 1 ≠ 0
  vD : f.z ^ f.nD - 1 ≠ 0
  τ : f.τ ≠ 0
  τz : f.τ ≠ f.z

theorem blind_keep {f : Frame F} (hf : f.Fine) (p p' : F[X]) (x : F) :
    (blind f.n p' (x + f.shift p p')).eval f.z = (blind f.n p x).eval f.z := by
  have := hf.v
  unfold blind Frame.shift
  simp only [eval_add, eval_mul, eval_C, eval_sub, eval_pow, eval_X, eval_one]
  field_simp
  ring

theorem w_keep {f : Frame F} (hf : f.Fine) {S S' : Side F} {x : F}
    (h : f.w S x * (X ^ f.nD - 1) = blind f.n S.I x)
    (h' : f.w S' (x + f.shift S.I S'.I) * (X ^ f.nD - 1) = blind f.n S'.I (x + f.shift S.I S'.I)) :
    (f.w S' (x + f.shift S.I S'.I)).eval f.z = (f.w S x).eval f.z := by
  have h1 := congrArg (eval f.z) h
  have h2 := congrArg (eval f.z) h'
  rw [blind_keep hf, ← h1, eval_mul, eval_mul] at h2
  refine mul_right_cancel₀ ?_ h2
  simpa using hf.vD

theorem D_keep {f : Frame F} (hf : f.Fine) (S S' : Side F) (w za zb : F) : (f.D S S' w za zb).eval f.z = 0 := by
  unfold Frame.D Frame.q
  simp only [eval_sub, eval_mul, eval_add, eval_C, blind_keep hf]
  ring

theorem E_at {f : Frame F} (c0 : F) : (f.E c0).eval f.z = 0 := by
  unfold Frame.E; simp

theorem DE_tau {f : Frame F} (hf : f.Fine) (S S' : Side F) (w za zb : F) :
    (f.D S S' w za zb).eval f.τ + (f.E (f.c0 S S' w za zb)).eval f.τ = 0 := by
  have := hf.τ
  have h2 := sub_ne_zero.mpr hf.τz
  unfold Frame.E Frame.c0
  simp only [eval_mul, eval_C, eval_X, eval_sub]
  field_simp
  ring

theorem E_degree {f : Frame F} (hf : 3 ≤ f.n) (c0 : F) : (f.E c0).degree < (X ^ f.n - 1 : F[X]).degree := by
  rw [← C_1, degree_X_pow_sub_C (by omega)]
  refine degree_le_natDegree.trans_lt ?_
  have : (f.E c0).natDegree ≤ 2 := by
    unfold Frame.E
    refine (natDegree_C_mul_le _ _).trans (natDegree_mul_le.trans ?_)
    have := natDegree_X_sub_C_le f.z
    have := natDegree_X_le (R := F)
    omega
  exact_mod_cast (by omega : (f.E c0).natDegree < f.n)

theorem E_mod {f : Frame F} (hf : 3 ≤ f.n) (c0 : F) : f.E c0 % (X ^ f.n - 1) = f.E c0 := by
  refine (mod_eq_self_iff ?_).mpr (E_degree hf c0)
  rw [← C_1]
  exact (monic_X_pow_sub_C 1 (by omega)).ne_zero

theorem E_divX {f : Frame F} (c0 : F) : (f.E c0).divX = C c0 * (X - C f.z) := by
  unfold Frame.E
  rw [divX_C_mul]
  congr 1
  have h := divX_mul_X_add (X * (X - C f.z))
  have h0 : (X * (X - C f.z)).coeff 0 = 0 := by simp
  rw [h0, C_0, add_zero, mul_comm X] at h
  rw [mul_comm X]
  exact mul_right_cancel₀ X_ne_zero h

theorem E_coeff {f : Frame F} (c0 : F) : (f.E c0).coeff 0 = 0 := by
  unfold Frame.E; simp

/-- Adding `E` to the outer polynomial leaves the quotient alone. -/
theorem q_div {f : Frame F} (hf : 3 ≤ f.n) (q : F[X]) (c0 : F) :
    (q + f.E c0) / (X ^ f.n - 1) = q / (X ^ f.n - 1) ∧
      ((q + f.E c0) % (X ^ f.n - 1)).divX = (q % (X ^ f.n - 1)).divX + C c0 * (X - C f.z) := by
  have hm : (q + f.E c0) % (X ^ f.n - 1) = q % (X ^ f.n - 1) + f.E c0 := by rw [add_mod, E_mod hf]
  have hne : (X ^ f.n - 1 : F[X]) ≠ 0 := by
    rw [← C_1]
    exact (monic_X_pow_sub_C 1 (by omega)).ne_zero
  refine ⟨?_, by rw [hm, divX_add, E_divX]⟩
  have h1 := EuclideanDomain.div_add_mod (q + f.E c0) (X ^ f.n - 1)
  have h2 := EuclideanDomain.div_add_mod q (X ^ f.n - 1)
  rw [hm] at h1
  refine mul_left_cancel₀ hne ?_
  linear_combination h1 - h2

end Zkp.Marlin
