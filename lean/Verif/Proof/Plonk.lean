/- Lemmas about the Plonk protocol. -/
import Verif.Model.Plonk
import Verif.Proof.Domain
import Verif.Proof.Asvc
import Verif.Props.PlonkComposer
import Mathlib.Algebra.Field.GeomSum

set_option linter.unusedSectionVars false
set_option linter.unusedSimpArgs false

namespace Zkp.Plonk

open Polynomial

variable {F : Type} [Field F] [DecidableEq F]

/-! ### Splitting the quotient -/

theorem polyOf_append (a b : List F) : polyOf (a ++ b) = polyOf a + X ^ a.length * polyOf b := by
  ext k
  rw [coeff_add, coeff_X_pow_mul', polyOf_coeff, polyOf_coeff]
  by_cases h : k < a.length
  · rw [if_neg (by omega), add_zero, List.getD_append _ _ _ _ h]
  · rw [if_pos (by omega), List.getD_append_right _ _ _ _ (by omega), polyOf_coeff,
      List.getD_eq_default (l := a) _ (by omega), zero_add]

theorem polyOf_split (n : Nat) (cs : List F) :
    polyOf cs = polyOf (cs.take n) + X ^ n * polyOf (cs.drop n) := by
  by_cases h : n ≤ cs.length
  · conv_lhs => rw [← List.take_append_drop n cs]
    rw [polyOf_append, List.length_take, min_eq_left h]
  · rw [List.take_of_length_le (by omega), List.drop_eq_nil_of_le (by omega)]
    simp [polyOf]

theorem polyOf_natDegree_lt (cs : List F) {n : Nat} (hn : 0 < n) (h : cs.length ≤ n) :
    (polyOf cs).natDegree < n := by
  by_cases h0 : polyOf cs = 0
  · rw [h0]; simpa using hn
  · rw [natDegree_lt_iff_degree_lt h0]
    exact lt_of_lt_of_le (polyOf_degree cs) (by exact_mod_cast h)

theorem quadSplit_eq (n : Nat) (cs : List F) (h : cs.length ≤ 4 * n) :
    polyOf cs = (quadSplit n cs).1 + X ^ n * (quadSplit n cs).2.1 + (X ^ n) ^ 2 * (quadSplit n cs).2.2.1
      + X ^ n * (X ^ n) ^ 2 * (quadSplit n cs).2.2.2 := by
  unfold quadSplit
  dsimp only
  rw [polyOf_split n cs, polyOf_split n (cs.drop n), List.drop_drop, polyOf_split n (cs.drop (n + n)),
    List.drop_drop]
  have e1 : n + n = 2 * n := by ring
  have e2 : 2 * n + n = 3 * n := by ring
  have e3 : (cs.drop (3 * n)).take n = cs.drop (3 * n) := List.take_of_length_le (by simp; omega)
  rw [e1, e2, e3]
  ring

/-! ### The identity that is checked -/

/-- The prover's polynomials. -/
structure Msgs (F : Type) [Field F] where
  w0 : F[X]
  w1 : F[X]
  w2 : F[X]
  w3 : F[X]
  z : F[X]
  t0 : F[X]
  t1 : F[X]
  t2 : F[X]
  t3 : F[X]

/-- With labels, in the order of their commitments. -/
def Msgs.polys (m : Msgs F) : List (String × F[X]) :=
  [("w_0", m.w0), ("w_1", m.w1), ("w_2", m.w2), ("w_3", m.w3), ("z", m.z), ("t_0", m.t0), ("t_1", m.t1),
    ("t_2", m.t2), ("t_3", m.t3)]

/-- The gate part. -/
noncomputable def arithPoly (i : Index F) (w0 w1 w2 w3 pi : F[X]) : F[X] :=
  (i.q_0.poly * w0 + i.q_1.poly * w1 + i.q_2.poly * w2 + i.q_3.poly * w3 + i.q_m.poly * w1 * w2 + i.q_c.poly
    + pi) * i.q_arith.poly

/-- The product over the identity positions. -/
noncomputable def numPoly (i : Index F) (w0 w1 w2 w3 : F[X]) (β γ : F) : F[X] :=
  (w0 + C (i.info.ks 0 * β) * X + C γ) * (w1 + C (i.info.ks 1 * β) * X + C γ)
    * (w2 + C (i.info.ks 2 * β) * X + C γ) * (w3 + C (i.info.ks 3 * β) * X + C γ)

/-- The product over the permuted positions. -/
noncomputable def denPoly (i : Index F) (w0 w1 w2 w3 : F[X]) (β γ : F) : F[X] :=
  (w0 + C β * i.sigma_0.poly + C γ) * (w1 + C β * i.sigma_1.poly + C γ)
    * (w2 + C β * i.sigma_2.poly + C γ) * (w3 + C β * i.sigma_3.poly + C γ)

/-- The polynomial that has to vanish on the domain. -/
noncomputable def checkPoly (i : Index F) (w0 w1 w2 w3 z pi : F[X]) (β γ α : F) : F[X] :=
  arithPoly i w0 w1 w2 w3 pi
    + C α * (numPoly i w0 w1 w2 w3 β γ * z
      - denPoly i w0 w1 w2 w3 β γ * z.comp (C (i.info.domain_n.element 1) * X))
    + C (α ^ 2) * (firstLagrangePoly i.info.domain_n * (z - 1))

theorem firstLagrange_eval {D : Domain F} (hD : D.Valid) {ζ : F} (hζ : ζ ≠ 1) :
    evaluateFirstLagrange D ζ = .ok ((firstLagrangePoly D).eval ζ) := by
  unfold evaluateFirstLagrange invOrPanic
  have h1 : (D.size : F) * (ζ - 1) ≠ 0 := mul_ne_zero hD.size_ne (sub_ne_zero.mpr hζ)
  rw [if_neg h1]
  simp only [bind, Except.bind]
  congr 1
  unfold firstLagrangePoly interpolate
  rw [Domain.eval_ifft]
  have hz : ∀ i, ((List.replicate D.size (0 : F)).set 0 1).getD i 0 = if i = 0 then 1 else 0 := by
    intro i
    rw [List.getD_eq_getElem?_getD, List.getElem?_set]
    have := hD.pos
    by_cases hi : i = 0
    · subst hi; simp [this]
    · rw [if_neg (fun h => hi h.symm), if_neg hi, List.getElem?_replicate]
      split <;> rfl
  simp only [hz, ite_mul, one_mul, zero_mul]
  rw [Finset.sum_ite_eq' (Finset.range D.size) 0, if_pos (Finset.mem_range.mpr hD.pos),
    Domain.lagrange_getD _ hD.pos]
  simp only [pow_zero, mul_one]
  rw [geom_sum_eq hζ]
  field_simp

theorem firstLagrange_element {D : Domain F} (hD : D.Valid) {k : Nat} (hk : k < D.size) :
    (firstLagrangePoly D).eval (D.ω ^ k) = if k = 0 then 1 else 0 := by
  unfold firstLagrangePoly interpolate
  rw [hD.eval_ifft_element _ hk, List.getD_eq_getElem?_getD, List.getElem?_set]
  have := hD.pos
  by_cases hi : k = 0
  · subst hi; simp [this]
  · rw [if_neg (fun h => hi h.symm), if_neg hi, List.getElem?_replicate]
    split <;> rfl

/-- The verifier's equation says that the identity holds at `ζ`. -/
theorem final_iff {D : Domain F} (i : Index F) (hi : i.info.domain_n = D) (c : Chals F) (m : Msgs F) (pi : F[X])
    (t : F) :
    let l1 := (firstLagrangePoly D).eval c.zeta
    let w0 := m.w0.eval c.zeta
    let w1 := m.w1.eval c.zeta
    let w2 := m.w2.eval c.zeta
    let w3 := m.w3.eval c.zeta
    let zs := m.z.eval (c.zeta * D.element 1)
    let s0 := i.sigma_0.poly.eval c.zeta
    let s1 := i.sigma_1.poly.eval c.zeta
    let s2 := i.sigma_2.poly.eval c.zeta
    let qa := i.q_arith.poly.eval c.zeta
    finalCheck D c (pi.eval c.zeta) l1 w0 w1 w2 w3 zs s0 s1 s2 qa t
      ((qa * w0) * i.q_0.poly.eval c.zeta + (qa * w1) * i.q_1.poly.eval c.zeta + (qa * w2) * i.q_2.poly.eval c.zeta
        + (qa * w3) * i.q_3.poly.eval c.zeta + (qa * w1 * w2) * i.q_m.poly.eval c.zeta + qa * i.q_c.poly.eval c.zeta
        + ((w0 + i.info.ks 0 * c.beta * c.zeta + c.gamma) * (w1 + i.info.ks 1 * c.beta * c.zeta + c.gamma)
          * (w2 + i.info.ks 2 * c.beta * c.zeta + c.gamma) * (w3 + i.info.ks 3 * c.beta * c.zeta + c.gamma)
            * c.alpha + l1 * c.alpha ^ 2) * m.z.eval c.zeta
        + (-((w0 + c.beta * s0 + c.gamma) * (w1 + c.beta * s1 + c.gamma) * (w2 + c.beta * s2 + c.gamma) * c.beta
            * zs) * c.alpha) * i.sigma_3.poly.eval c.zeta) = true ↔
    (checkPoly i m.w0 m.w1 m.w2 m.w3 m.z pi c.beta c.gamma c.alpha).eval c.zeta = t * (c.zeta ^ D.size - 1) := by
  intro l1 w0 w1 w2 w3 zs s0 s1 s2 qa
  unfold finalCheck
  rw [decide_eq_true_iff]
  have hc : (m.z.comp (C (D.element 1) * X)).eval c.zeta = zs := by
    rw [eval_comp, eval_mul, eval_C, eval_X, mul_comm]
  unfold checkPoly arithPoly numPoly denPoly
  rw [hi]
  simp only [eval_add, eval_mul, eval_sub, eval_C, eval_X, eval_one, hc]
  change _ ↔ (i.q_0.poly.eval c.zeta * w0 + i.q_1.poly.eval c.zeta * w1 + i.q_2.poly.eval c.zeta * w2
    + i.q_3.poly.eval c.zeta * w3 + i.q_m.poly.eval c.zeta * w1 * w2 + i.q_c.poly.eval c.zeta
    + pi.eval c.zeta) * qa + c.alpha * (((w0 + i.info.ks 0 * c.beta * c.zeta + c.gamma)
    * (w1 + i.info.ks 1 * c.beta * c.zeta + c.gamma) * (w2 + i.info.ks 2 * c.beta * c.zeta + c.gamma)
    * (w3 + i.info.ks 3 * c.beta * c.zeta + c.gamma)) * m.z.eval c.zeta
    - (w0 + c.beta * s0 + c.gamma) * (w1 + c.beta * s1 + c.gamma) * (w2 + c.beta * s2 + c.gamma)
    * (w3 + c.beta * i.sigma_3.poly.eval c.zeta + c.gamma) * zs) + c.alpha ^ 2 * (l1 * (m.z.eval c.zeta - 1)) = _
  constructor <;> intro h <;> linear_combination -h

/-! ### Honest evaluations -/

/-- What is assumed of the external commitment scheme for completeness: honest openings of commitments to
polynomials of supported degree are accepted. -/
def PC.Complete (pc : PC F) : Prop :=
  ∀ (deg : Nat) (lcs : List (LinComb F)) (polys : List (String × F[X])) (qs : List (String × F))
    (ev : String → F → Option F) (ε : F), (∀ p ∈ polys, p.2.natDegree ≤ deg) → (polys.map (·.1)).Nodup →
    (∀ q ∈ qs, ∃ v, evalQuery lcs polys q = .ok v ∧ ev q.1 q.2 = some v) →
    pc.checkCombinations deg lcs (polys.map fun p => (p.1, pc.commit deg p.2)) qs ev
      (pc.openCombinations deg lcs polys qs ε) ε = .ok true

/-- The value of `r` at `ζ`. -/
noncomputable def rValue (i : Index F) (c : Chals F) (m : Msgs F) : F :=
  let D := i.info.domain_n
  let l1 := (firstLagrangePoly D).eval c.zeta
  let w0 := m.w0.eval c.zeta
  let w1 := m.w1.eval c.zeta
  let w2 := m.w2.eval c.zeta
  let w3 := m.w3.eval c.zeta
  let zs := m.z.eval (c.zeta * D.element 1)
  let s0 := i.sigma_0.poly.eval c.zeta
  let s1 := i.sigma_1.poly.eval c.zeta
  let s2 := i.sigma_2.poly.eval c.zeta
  let qa := i.q_arith.poly.eval c.zeta
  (qa * w0) * i.q_0.poly.eval c.zeta + (qa * w1) * i.q_1.poly.eval c.zeta + (qa * w2) * i.q_2.poly.eval c.zeta
    + (qa * w3) * i.q_3.poly.eval c.zeta + (qa * w1 * w2) * i.q_m.poly.eval c.zeta + qa * i.q_c.poly.eval c.zeta
    + ((w0 + i.info.ks 0 * c.beta * c.zeta + c.gamma) * (w1 + i.info.ks 1 * c.beta * c.zeta + c.gamma)
      * (w2 + i.info.ks 2 * c.beta * c.zeta + c.gamma) * (w3 + i.info.ks 3 * c.beta * c.zeta + c.gamma)
        * c.alpha + l1 * c.alpha ^ 2) * m.z.eval c.zeta
    + (-((w0 + c.beta * s0 + c.gamma) * (w1 + c.beta * s1 + c.gamma) * (w2 + c.beta * s2 + c.gamma) * c.beta
        * zs) * c.alpha) * i.sigma_3.poly.eval c.zeta

/-- The value of `t` at `ζ`. -/
noncomputable def tValue (n : Nat) (m : Msgs F) (ζ : F) : F :=
  m.t0.eval ζ + ζ ^ n * m.t1.eval ζ + (ζ ^ n) ^ 2 * m.t2.eval ζ + ζ ^ n * (ζ ^ n) ^ 2 * m.t3.eval ζ

/-- The evaluations of an honest prover for given polynomials. -/
noncomputable def honestEvals (i : Index F) (c : Chals F) (m : Msgs F) : List F :=
  [i.q_arith.poly.eval c.zeta, rValue i c m, i.sigma_0.poly.eval c.zeta, i.sigma_1.poly.eval c.zeta,
    i.sigma_2.poly.eval c.zeta, tValue i.info.n m c.zeta, m.w0.eval c.zeta, m.w1.eval c.zeta, m.w2.eval c.zeta,
    m.w3.eval c.zeta, m.z.eval (c.zeta * i.info.domain_n.element 1)]

/-- The linear combinations for given polynomials. -/
noncomputable def honestLcs (i : Index F) (c : Chals F) (m : Msgs F) : List (LinComb F) :=
  let D := i.info.domain_n
  let l1 := (firstLagrangePoly D).eval c.zeta
  let w0 := m.w0.eval c.zeta
  let w1 := m.w1.eval c.zeta
  let w2 := m.w2.eval c.zeta
  let w3 := m.w3.eval c.zeta
  let zs := m.z.eval (c.zeta * D.element 1)
  let s0 := i.sigma_0.poly.eval c.zeta
  let s1 := i.sigma_1.poly.eval c.zeta
  let s2 := i.sigma_2.poly.eval c.zeta
  let qa := i.q_arith.poly.eval c.zeta
  [single "q_arith",
    ⟨"r", arithTerms w0 w1 w2 w3 qa ++
      [((w0 + i.info.ks 0 * c.beta * c.zeta + c.gamma) * (w1 + i.info.ks 1 * c.beta * c.zeta + c.gamma)
        * (w2 + i.info.ks 2 * c.beta * c.zeta + c.gamma) * (w3 + i.info.ks 3 * c.beta * c.zeta + c.gamma)
          * c.alpha + l1 * c.alpha ^ 2, "z"),
       (-((w0 + c.beta * s0 + c.gamma) * (w1 + c.beta * s1 + c.gamma) * (w2 + c.beta * s2 + c.gamma) * c.beta
        * zs) * c.alpha, "sigma_3")]⟩, single "sigma_0", single "sigma_1",
    single "sigma_2", tComb i.info.n c.zeta, single "w_0", single "w_1", single "w_2", single "w_3", single "z"]

theorem evalPolys_cons {polys : List (String × F[X])} {l l' : String} {p : F[X]} (h : polys.find? (·.1 = l) = some (l', p))
    (x : F) : evalPolys polys (single l) x = .ok (p.eval x) := by
  unfold evalPolys single
  simp only [List.foldlM_cons, List.foldlM_nil, addTerm, h]
  simp [bind, Except.bind, pure, Except.pure]

theorem honest_lcs {i : Index F} (hD : i.info.domain_n.Valid) {c : Chals F} (hζ : c.zeta ≠ 1) (m : Msgs F)
    {ev : LinComb F → F → Except Err F} (h0 : ev (single "w_0") c.zeta = .ok (m.w0.eval c.zeta))
    (h1 : ev (single "w_1") c.zeta = .ok (m.w1.eval c.zeta))
    (h2 : ev (single "w_2") c.zeta = .ok (m.w2.eval c.zeta))
    (h3 : ev (single "w_3") c.zeta = .ok (m.w3.eval c.zeta))
    (hz : ev (single "z") (c.zeta * i.info.domain_n.element 1) =
      .ok (m.z.eval (c.zeta * i.info.domain_n.element 1)))
    (k0 : ev (single "sigma_0") c.zeta = .ok (i.sigma_0.poly.eval c.zeta))
    (k1 : ev (single "sigma_1") c.zeta = .ok (i.sigma_1.poly.eval c.zeta))
    (k2 : ev (single "sigma_2") c.zeta = .ok (i.sigma_2.poly.eval c.zeta))
    (ka : ev (single "q_arith") c.zeta = .ok (i.q_arith.poly.eval c.zeta)) :
    linearCombinations i.info c ev = .ok (honestLcs i c m) := by
  unfold linearCombinations permTerms
  rw [h0, h1, h2, h3, hz, k0, k1, k2, ka, firstLagrange_eval hD hζ]
  rfl

theorem honest_evals {i : Index F} {c : Chals F} (m : Msgs F) :
    (querySet i.info.domain_n c.zeta).mapM (evalQuery (honestLcs i c m) (i.polys ++ m.polys)) =
      .ok (honestEvals i c m) := by
  have hs : ∀ (l : String) (x : F) (p : F[X]), (honestLcs i c m).find? (·.label = l) = some (single l) →
      (i.polys ++ m.polys).find? (·.1 = l) = some (l, p) →
      evalQuery (honestLcs i c m) (i.polys ++ m.polys) (l, x) = .ok (p.eval x) := by
    intro l x p h1 h2
    unfold evalQuery
    dsimp only
    rw [h1]
    exact evalPolys_cons h2 x
  have e1 := hs "q_arith" c.zeta i.q_arith.poly (by simp [honestLcs, single, tComb])
    (by simp [Index.polys, Msgs.polys])
  have e3 := hs "sigma_0" c.zeta i.sigma_0.poly (by simp [honestLcs, single, tComb])
    (by simp [Index.polys, Msgs.polys])
  have e4 := hs "sigma_1" c.zeta i.sigma_1.poly (by simp [honestLcs, single, tComb])
    (by simp [Index.polys, Msgs.polys])
  have e5 := hs "sigma_2" c.zeta i.sigma_2.poly (by simp [honestLcs, single, tComb])
    (by simp [Index.polys, Msgs.polys])
  have e7 := hs "w_0" c.zeta m.w0 (by simp [honestLcs, single, tComb]) (by simp [Index.polys, Msgs.polys])
  have e8 := hs "w_1" c.zeta m.w1 (by simp [honestLcs, single, tComb]) (by simp [Index.polys, Msgs.polys])
  have e9 := hs "w_2" c.zeta m.w2 (by simp [honestLcs, single, tComb]) (by simp [Index.polys, Msgs.polys])
  have e10 := hs "w_3" c.zeta m.w3 (by simp [honestLcs, single, tComb]) (by simp [Index.polys, Msgs.polys])
  have e11 := hs "z" (c.zeta * i.info.domain_n.element 1) m.z (by simp [honestLcs, single, tComb])
    (by simp [Index.polys, Msgs.polys])
  have e6 : evalQuery (honestLcs i c m) (i.polys ++ m.polys) ("t", c.zeta) =
      .ok (tValue i.info.n m c.zeta) := by
    simp [evalQuery, honestLcs, single, tComb, evalPolys, addTerm, Index.polys, Msgs.polys, bind, Except.bind,
      pure, Except.pure, tValue, eval_add, eval_mul]
  have e2 : evalQuery (honestLcs i c m) (i.polys ++ m.polys) ("r", c.zeta) =
      .ok (rValue i c m) := by
    simp only [evalQuery, honestLcs, single, List.find?_cons]
    simp [evalPolys, arithTerms, addTerm, Index.polys, Msgs.polys, bind, Except.bind,
      pure, Except.pure, rValue, eval_add, eval_mul]
  unfold querySet
  simp only [List.mapM_cons, List.mapM_nil, e1, e2, e3, e4, e5, e6, e7, e8, e9, e10, e11]
  rfl

theorem evalMap_get (qs : List (String × F)) (es : List F) (l : String) (x v : F) (k : Nat)
    (hk : qs[k]? = some (l, x)) (he : es[k]? = some v) (hn : (qs.map (·.1)).Nodup) :
    evalMap qs es l x = some v := by
  unfold evalMap
  induction qs generalizing es k with
  | nil => simp at hk
  | cons q qs ih =>
    cases es with
    | nil => simp at he
    | cons e es =>
      rw [List.zip_cons_cons, List.find?_cons]
      cases k with
      | zero =>
        simp only [List.getElem?_cons_zero, Option.some.injEq] at hk he
        subst hk he
        simp
      | succ k =>
        rw [List.getElem?_cons_succ] at hk he
        rw [List.map_cons, List.nodup_cons] at hn
        have hne : q ≠ (l, x) := by
          rintro rfl
          exact hn.1 (List.mem_map.mpr ⟨(l, x), List.mem_of_getElem? hk, rfl⟩)
        simp only [hne, decide_false]
        exact ih es k hk he hn.2

theorem querySet_nodup (D : Domain F) (ζ : F) : ((querySet D ζ).map (·.1)).Nodup := by
  simp [querySet]

theorem labels_nodup (i : Index F) (m : Msgs F) : ((i.polys ++ m.polys).map (·.1)).Nodup := by
  simp [Index.polys, Msgs.polys]

end Zkp.Plonk
