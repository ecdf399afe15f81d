/- C60: Libra's gate tables. -/
import Verif.Proof.Layered
import Verif.Props.Layered

namespace Zkp.Gkr

open Zkp.Ml Zkp.Spartan Zkp.Sc

set_option linter.unusedSectionVars false
set_option linter.unusedSimpArgs false

variable {F : Type} [Field F]

/-- The wiring predicate: the number of gates with operator `op`, output `g` and operands `x` and `y`. -/
def wire (op : Nat) (gates : List Gate) (g x y : Nat) : F :=
  (gates.map fun t => if t.op = op ∧ t.g = g ∧ t.left = x ∧ t.right = y then (1 : F) else 0).sum

theorem wire_cons (op : Nat) (t : Gate) (gates : List Gate) (g x y : Nat) :
    (wire op (t :: gates) g x y : F) =
      (if t.op = op ∧ t.g = g ∧ t.left = x ∧ t.right = y then 1 else 0) + wire op gates g x y := by simp [wire]

/-- Sums over the gates are sums over the hypercube against the wiring predicate. -/
theorem gateSum_wire (op : Nat) (gates : List Gate) (k n : Nat) (h : GatesOk gates k n) (f : Nat → Nat → Nat → F) :
    gateSum op gates (fun t => f t.g t.left t.right) =
      ∑ g ∈ Finset.range k, ∑ x ∈ Finset.range n, ∑ y ∈ Finset.range n, wire op gates g x y * f g x y := by
  induction gates with
  | nil => simp [gateSum, wire]
  | cons t l ih =>
    rw [gateSum_cons, ih fun t ht => h t (by simp [ht])]
    simp only [wire_cons, add_mul, Finset.sum_add_distrib]
    congr 1
    obtain ⟨h1, h2, h3⟩ := h t (by simp)
    by_cases ho : t.op = op
    · rw [Finset.sum_eq_single t.g, Finset.sum_eq_single t.left, Finset.sum_eq_single t.right]
      · simp [ho]
      · intro y _ hy; simp [hy.symm]
      · intro hy; exact absurd (Finset.mem_range.2 h3) hy
      · intro x _ hx; simp [hx.symm]
      · intro hx; exact absurd (Finset.mem_range.2 h2) hx
      · intro g _ hg; simp [hg.symm]
      · intro hg; exact absurd (Finset.mem_range.2 h1) hg
    · simp [ho]

theorem sum_pick (k n : Nat) (f : Nat → Nat → Nat → F) (x0 : Nat) (hx : x0 < n) :
    (∑ g ∈ Finset.range k, ∑ x ∈ Finset.range n, ∑ y ∈ Finset.range n, if x = x0 then f g x y else 0) =
      ∑ g ∈ Finset.range k, ∑ y ∈ Finset.range n, f g x0 y := by
  apply Finset.sum_congr rfl
  intro g _
  rw [Finset.sum_eq_single x0]
  · simp
  · intro x _ h; simp [h]
  · intro h; exact absurd (Finset.mem_range.2 hx) h

theorem gateSum_left (op : Nat) (gates : List Gate) (k n : Nat) (h : GatesOk gates k n) (f : Nat → Nat → F)
    (x : Nat) (hx : x < n) :
    gateSum op gates (fun t => if t.left = x then f t.g t.right else 0) =
      ∑ g ∈ Finset.range k, ∑ y ∈ Finset.range n, wire op gates g x y * f g y := by
  rw [gateSum_wire op gates k n h fun g x' y => if x' = x then f g y else 0]
  simp only [mul_ite, mul_zero]
  exact sum_pick k n (fun g x' y => wire op gates g x' y * f g y) x hx

theorem gateSum_right (op : Nat) (gates : List Gate) (k n : Nat) (h : GatesOk gates k n) (f : Nat → Nat → F)
    (y : Nat) (hy : y < n) :
    gateSum op gates (fun t => if t.right = y then f t.g t.left else 0) =
      ∑ g ∈ Finset.range k, ∑ x ∈ Finset.range n, wire op gates g x y * f g x := by
  rw [gateSum_wire op gates k n h fun g x y' => if y' = y then f g x else 0]
  apply Finset.sum_congr rfl
  intro g _
  apply Finset.sum_congr rfl
  intro x _
  rw [Finset.sum_eq_single y]
  · simp
  · intro y' _ h; simp [h]
  · intro h; exact absurd (Finset.mem_range.2 hy) h

/-- Phase one: for all gates that refer to existing positions, all values and all points the tables are the
sums of wiring predicate, weight of the output position and value. -/
theorem C60_phase_one (gu gv : List F) (gates : List Gate) (v : List F) (n : Nat) (alpha beta : F)
    (h : gu.length = gv.length) (hv : v.length = 2 ^ n) (hg : GatesOk gates (2 ^ gu.length) (2 ^ n)) :
    ∃ mul add1 add2, initPhaseOne gu gv gates v n alpha beta = some (mul, add1, add2) ∧
      mul.length = 2 ^ n ∧ add1.length = 2 ^ n ∧ add2.length = 2 ^ n ∧ ∀ x < 2 ^ n,
      mul.getD x 0 = ∑ g ∈ Finset.range (2 ^ gu.length), ∑ y ∈ Finset.range (2 ^ n),
        wire 1 gates g x y * ((alpha * eqWeight gu g + beta * eqWeight gv g) * v.getD y 0) ∧
      add1.getD x 0 = ∑ g ∈ Finset.range (2 ^ gu.length), ∑ y ∈ Finset.range (2 ^ n),
        wire 0 gates g x y * (alpha * eqWeight gu g + beta * eqWeight gv g) ∧
      add2.getD x 0 = ∑ g ∈ Finset.range (2 ^ gu.length), ∑ y ∈ Finset.range (2 ^ n),
        wire 0 gates g x y * ((alpha * eqWeight gu g + beta * eqWeight gv g) * v.getD y 0) := by
  obtain ⟨mul, add1, add2, e, l1, l2, l3, h1, h2, h3⟩ := initPhaseOne_some gu gv gates v n alpha beta h hv hg
  refine ⟨mul, add1, add2, e, l1, l2, l3, fun x hx => ⟨?_, ?_, ?_⟩⟩
  · rw [h1]
    exact gateSum_left 1 gates _ _ hg (fun g y => gWeight gu gv alpha beta g * v.getD y 0) x hx
  · rw [h2]
    exact gateSum_left 0 gates _ _ hg (fun g _ => gWeight gu gv alpha beta g) x hx
  · rw [h3]
    exact gateSum_left 0 gates _ _ hg (fun g y => gWeight gu gv alpha beta g * v.getD y 0) x hx

/-- Phase two: the tables are the sums of wiring predicate, weight of the output position and weight of
the first operand; the returned value is the multilinear extension of the values at the first point. -/
theorem C60_phase_two (gu gv ru : List F) (gates : List Gate) (v : List F) (n : Nat) (alpha beta : F)
    (h : gu.length = gv.length) (hv : v.length = 2 ^ n) (hr : ru.length = n)
    (hg : GatesOk gates (2 ^ gu.length) (2 ^ n)) :
    ∃ mul add, initPhaseTwo gu gv ru gates v n alpha beta = some (mul, add, mle v ru) ∧
      mul.length = 2 ^ n ∧ add.length = 2 ^ n ∧ ∀ y < 2 ^ n,
      mul.getD y 0 = ∑ g ∈ Finset.range (2 ^ gu.length), ∑ x ∈ Finset.range (2 ^ n),
        wire 1 gates g x y * ((alpha * eqWeight gu g + beta * eqWeight gv g) * eqWeight ru x) ∧
      add.getD y 0 = ∑ g ∈ Finset.range (2 ^ gu.length), ∑ x ∈ Finset.range (2 ^ n),
        wire 0 gates g x y * ((alpha * eqWeight gu g + beta * eqWeight gv g) * eqWeight ru x) := by
  obtain ⟨mul, add, e, l1, l2, h1, h2⟩ := initPhaseTwo_some gu gv ru gates v n alpha beta h hv hr hg
  refine ⟨mul, add, e, l1, l2, fun y hy => ⟨?_, ?_⟩⟩
  · rw [h1]
    exact gateSum_right 1 gates _ _ hg (fun g x => gWeight gu gv alpha beta g * eqWeight ru x) y hy
  · rw [h2]
    exact gateSum_right 0 gates _ _ hg (fun g x => gWeight gu gv alpha beta g * eqWeight ru x) y hy

theorem gatesOf_sum (raw : List (Nat × Nat × Nat)) (k : Nat) (f : Gate → F) :
    ((raw.zipIdx k).map fun x => f ⟨x.2, x.1.1, x.1.2.1, x.1.2.2⟩).sum =
      ∑ i ∈ Finset.range raw.length, f ⟨i + k, (raw.getD i 0).1, (raw.getD i 0).2.1, (raw.getD i 0).2.2⟩ := by
  induction raw generalizing k with
  | nil => simp
  | cons a l ih =>
    rw [List.zipIdx_cons, List.map_cons, List.sum_cons, ih (k + 1), List.length_cons, Finset.sum_range_succ', add_comm]
    congr 1
    · apply Finset.sum_congr rfl
      intro i _
      simp [Nat.add_assoc, Nat.add_comm 1 k]
    · simp

theorem gatesOf_ok (raw : List (Nat × Nat × Nat)) (k n : Nat) (hk : raw.length ≤ k) (h : ∀ g ∈ raw, Legal n g) :
    GatesOk (gatesOf raw) k n := by
  intro t ht
  unfold gatesOf at ht
  obtain ⟨x, hx, rfl⟩ := List.mem_map.1 ht
  obtain ⟨a, i⟩ := x
  have hi := List.mem_zipIdx' hx
  have hm : a ∈ raw := hi.2 ▸ List.getElem_mem _
  exact ⟨by simp only; omega, (h a hm).2⟩

/-- The sum over all gates of weight times value is the combination of the output layer's multilinear
extensions. -/
theorem gateSum_out (raw : List (Nat × Nat × Nat)) (n : Nat) (h : ∀ g ∈ raw, Legal n g) (v gu gv : List F)
    (alpha beta : F) (hgv : gu.length = gv.length) (hk : raw.length ≤ 2 ^ gu.length) :
    gateSum 1 (gatesOf raw) (fun t => gWeight gu gv alpha beta t.g * (v.getD t.left 0 * v.getD t.right 0)) +
      gateSum 0 (gatesOf raw) (fun t => gWeight gu gv alpha beta t.g * (v.getD t.left 0 + v.getD t.right 0)) =
    alpha * mle (raw.map (gateValue v)) gu + beta * mle (raw.map (gateValue v)) gv := by
  unfold gateSum gatesOf
  rw [List.map_map, List.map_map]
  simp only [Function.comp_def]
  rw [gatesOf_sum raw 0 fun t => if t.op = 1 then gWeight gu gv alpha beta t.g * (v.getD t.left 0 * v.getD t.right 0) else 0,
    gatesOf_sum raw 0 fun t => if t.op = 0 then gWeight gu gv alpha beta t.g * (v.getD t.left 0 + v.getD t.right 0) else 0,
    ← Finset.sum_add_distrib]
  have key : ∀ r : List F, raw.length ≤ 2 ^ r.length → mle (raw.map (gateValue v)) r =
      ∑ i ∈ Finset.range raw.length, gateValue v (raw.getD i 0) * eqWeight r i := by
    intro r hr
    unfold mle
    rw [← Finset.sum_subset (Finset.range_mono hr)]
    · apply Finset.sum_congr rfl
      intro i hi
      have hi := Finset.mem_range.1 hi
      simp [List.getD_eq_getElem?_getD, hi]
    · intro i _ hi
      have hi : raw.length ≤ i := by simpa using hi
      rw [List.getD_eq_default _ _ (by simpa using hi)]; simp
  rw [key gu hk, key gv (hgv ▸ hk), Finset.mul_sum, Finset.mul_sum, ← Finset.sum_add_distrib]
  apply Finset.sum_congr rfl
  intro i hi
  have hi := Finset.mem_range.1 hi
  have hm : raw.getD i 0 ∈ raw := by
    rw [List.getD_eq_getElem?_getD, List.getElem?_eq_getElem hi]; exact List.getElem_mem _
  rcases (h _ hm).1 with h0 | h0
  · simp only [h0, gateValue, gWeight, Nat.add_zero, if_true, if_false, zero_ne_one]; ring
  · simp only [h0, gateValue, gWeight, Nat.add_zero, if_true, if_false, one_ne_zero]; ring

/-- The sum-check claim: summed over the hypercube the tables of phase one give the combination of the
output layer's multilinear extensions at the two points. -/
theorem C60_claim (gu gv : List F) (raw : List (Nat × Nat × Nat)) (v : List F) (n : Nat) (alpha beta : F)
    (h : gu.length = gv.length) (hv : v.length = 2 ^ n) (hk : raw.length ≤ 2 ^ gu.length)
    (hl : ∀ g ∈ raw, Legal (2 ^ n) g) :
    ∃ mul add1 add2, initPhaseOne gu gv (gatesOf raw) v n alpha beta = some (mul, add1, add2) ∧
      ∑ x ∈ Finset.range (2 ^ n), (v.getD x 0 * mul.getD x 0 + v.getD x 0 * add1.getD x 0 + add2.getD x 0) =
        alpha * mle (raw.map (gateValue v)) gu + beta * mle (raw.map (gateValue v)) gv := by
  have hg := gatesOf_ok raw (2 ^ gu.length) (2 ^ n) hk hl
  obtain ⟨mul, add1, add2, e, l1, l2, l3, h1, h2, h3⟩ := initPhaseOne_some gu gv (gatesOf raw) v n alpha beta h hv hg
  refine ⟨mul, add1, add2, e, ?_⟩
  rw [← gateSum_out raw (2 ^ n) hl v gu gv alpha beta h hk]
  simp only [h1, h2, h3, Finset.sum_add_distrib]
  have hp : ∀ t ∈ gatesOf raw, t.left < 2 ^ n := fun t ht => (hg t ht).2.1
  rw [sum_table 1 _ _ (·.left) _ hp, sum_table 0 _ _ (·.left) _ hp]
  have := sum_table 0 (gatesOf raw) (fun t => gWeight gu gv alpha beta t.g * v.getD t.right 0) (·.left) (2 ^ n) hp (fun _ => 1)
  simp only [one_mul] at this
  rw [this, add_assoc, gateSum_add]
  congr 1
  · exact gateSum_congr _ _ _ _ fun t _ _ => by ring
  · exact gateSum_congr _ _ _ _ fun t _ _ => by ring

/-- The last claim of phase one is the claim of phase two. -/
theorem C60_reduction (gu gv ru : List F) (gates : List Gate) (v : List F) (n : Nat) (alpha beta : F)
    (h : gu.length = gv.length) (hv : v.length = 2 ^ n) (hr : ru.length = n)
    (hg : GatesOk gates (2 ^ gu.length) (2 ^ n)) :
    ∃ mul1 add1 add2 mul add, initPhaseOne gu gv gates v n alpha beta = some (mul1, add1, add2) ∧
      initPhaseTwo gu gv ru gates v n alpha beta = some (mul, add, mle v ru) ∧
      mle v ru * mle mul1 ru + mle v ru * mle add1 ru + mle add2 ru =
        ∑ y ∈ Finset.range (2 ^ n), (mul.getD y 0 * v.getD y 0 * mle v ru + add.getD y 0 * mle v ru +
          add.getD y 0 * v.getD y 0) := by
  obtain ⟨mul1, add1, add2, e, l1, l2, l3, h1, h2, h3⟩ := initPhaseOne_some gu gv gates v n alpha beta h hv hg
  obtain ⟨mul, add, e', l1', l2', h1', h2'⟩ := initPhaseTwo_some gu gv ru gates v n alpha beta h hv hr hg
  refine ⟨mul1, add1, add2, mul, add, e, e', ?_⟩
  have hp : ∀ t ∈ gates, t.left < 2 ^ n := fun t ht => (hg t ht).2.1
  have hq : ∀ t ∈ gates, t.right < 2 ^ n := fun t ht => (hg t ht).2.2
  have flip : ∀ (a : Nat → F) (b : Nat → F), ∑ y ∈ Finset.range (2 ^ n), a y * b y = ∑ y ∈ Finset.range (2 ^ n), b y * a y :=
    fun a b => Finset.sum_congr rfl fun _ _ => mul_comm _ _
  have t1 : mle mul1 ru = gateSum 1 gates fun t => eqWeight ru t.left * (gWeight gu gv alpha beta t.g * v.getD t.right 0) := by
    unfold mle; rw [hr, flip]; simp only [h1]; rw [sum_table 1 gates _ (·.left) _ hp]
  have t2 : mle add1 ru = gateSum 0 gates fun t => eqWeight ru t.left * gWeight gu gv alpha beta t.g := by
    unfold mle; rw [hr, flip]; simp only [h2]; rw [sum_table 0 gates _ (·.left) _ hp]
  have t3 : mle add2 ru = gateSum 0 gates fun t => eqWeight ru t.left * (gWeight gu gv alpha beta t.g * v.getD t.right 0) := by
    unfold mle; rw [hr, flip]; simp only [h3]; rw [sum_table 0 gates _ (·.left) _ hp]
  have s1 : ∑ y ∈ Finset.range (2 ^ n), mul.getD y 0 * v.getD y 0 * mle v ru =
      mle v ru * gateSum 1 gates fun t => v.getD t.right 0 * (gWeight gu gv alpha beta t.g * eqWeight ru t.left) := by
    rw [← sum_table 1 gates _ (·.right) (2 ^ n) hq fun y => v.getD y 0, Finset.mul_sum]
    apply Finset.sum_congr rfl; intro y _; rw [h1']; ring
  have s2 : ∑ y ∈ Finset.range (2 ^ n), add.getD y 0 * mle v ru =
      mle v ru * gateSum 0 gates fun t => 1 * (gWeight gu gv alpha beta t.g * eqWeight ru t.left) := by
    rw [← sum_table 0 gates _ (·.right) (2 ^ n) hq fun _ => 1, Finset.mul_sum]
    apply Finset.sum_congr rfl; intro y _; rw [h2']; ring
  have s3 : ∑ y ∈ Finset.range (2 ^ n), add.getD y 0 * v.getD y 0 =
      gateSum 0 gates fun t => v.getD t.right 0 * (gWeight gu gv alpha beta t.g * eqWeight ru t.left) := by
    rw [← sum_table 0 gates _ (·.right) (2 ^ n) hq fun y => v.getD y 0]
    apply Finset.sum_congr rfl; intro y _; rw [h2']; ring
  rw [Finset.sum_add_distrib, Finset.sum_add_distrib, s1, s2, s3, t1, t2, t3]
  congr 1
  · congr 1
    · congr 1; exact gateSum_congr _ _ _ _ fun t _ _ => by ring
    · congr 1; exact gateSum_congr _ _ _ _ fun t _ _ => by ring
  · exact gateSum_congr _ _ _ _ fun t _ _ => by ring

/-- The step of `evalOperators`. -/
def opStep (gu gv ru rv : List F) (alpha beta : F) (acc : F × F) (g : Gate) : Option (F × F) := do
  let eval := alpha * (← (evalEq gu)[g.g]?) + beta * (← (evalEq gv)[g.g]?)
  if g.op = 0 then some (acc.1 + (← (evalEq ru)[g.left]?) * (← (evalEq rv)[g.right]?) * eval, acc.2)
  else if g.op = 1 then some (acc.1, acc.2 + (← (evalEq ru)[g.left]?) * (← (evalEq rv)[g.right]?) * eval)
  else some acc

theorem evalOperators_eq (gates : List Gate) (gu gv ru rv : List F) (alpha beta : F) (h : gu.length = gv.length)
    (hr : ru.length = rv.length) (hg : GatesOk gates (2 ^ gu.length) (2 ^ ru.length)) (acc : F × F) :
    gates.foldlM (opStep gu gv ru rv alpha beta) acc =
      some (acc.1 + gateSum 0 gates (fun t => gWeight gu gv alpha beta t.g * (eqWeight ru t.left * eqWeight rv t.right)),
        acc.2 + gateSum 1 gates fun t => gWeight gu gv alpha beta t.g * (eqWeight ru t.left * eqWeight rv t.right)) := by
  induction gates generalizing acc with
  | nil => simp [gateSum]
  | cons t l ih =>
    obtain ⟨h1, h2, h3⟩ := hg t (by simp)
    have ih := ih fun t ht => hg t (by simp [ht])
    rw [List.foldlM_cons]
    have e : opStep gu gv ru rv alpha beta acc t =
        some (acc.1 + (if t.op = 0 then gWeight gu gv alpha beta t.g * (eqWeight ru t.left * eqWeight rv t.right) else 0),
          acc.2 + (if t.op = 1 then gWeight gu gv alpha beta t.g * (eqWeight ru t.left * eqWeight rv t.right) else 0)) := by
      unfold opStep
      rw [evalEq_getElem? gu _ h1, evalEq_getElem? gv _ (h ▸ h1), evalEq_getElem? ru _ h2, evalEq_getElem? rv _ (hr ▸ h3)]
      simp only [Option.bind_eq_bind, Option.bind_some]
      by_cases o0 : t.op = 0
      · simp only [o0, if_true, gWeight, zero_ne_one, if_false, add_zero]
        congr 2; ring
      · by_cases o1 : t.op = 1
        · simp only [o1, if_true, gWeight, one_ne_zero, if_false, add_zero]
          congr 2; ring
        · simp [o0, o1]
    rw [e]
    simp only [Option.bind_eq_bind, Option.bind_some]
    rw [ih, gateSum_cons, gateSum_cons, add_assoc, add_assoc]

/-- At the second point the tables of phase two have the values that `eval_operators` computes from the
gates alone: the multilinear extensions of the wiring predicates. -/
theorem C60_operators (gu gv ru rv : List F) (gates : List Gate) (v : List F) (n : Nat) (alpha beta : F)
    (h : gu.length = gv.length) (hv : v.length = 2 ^ n) (hr : ru.length = n) (hr' : rv.length = n)
    (hg : GatesOk gates (2 ^ gu.length) (2 ^ n)) :
    ∃ mul add, initPhaseTwo gu gv ru gates v n alpha beta = some (mul, add, mle v ru) ∧
      evalOperators gates gu gv ru rv alpha beta = some (mle add rv, mle mul rv) ∧
      mle add rv = ∑ g ∈ Finset.range (2 ^ gu.length), ∑ x ∈ Finset.range (2 ^ n), ∑ y ∈ Finset.range (2 ^ n),
        wire 0 gates g x y * ((alpha * eqWeight gu g + beta * eqWeight gv g) * (eqWeight ru x * eqWeight rv y)) ∧
      mle mul rv = ∑ g ∈ Finset.range (2 ^ gu.length), ∑ x ∈ Finset.range (2 ^ n), ∑ y ∈ Finset.range (2 ^ n),
        wire 1 gates g x y * ((alpha * eqWeight gu g + beta * eqWeight gv g) * (eqWeight ru x * eqWeight rv y)) := by
  obtain ⟨mul, add, e', l1', l2', h1', h2'⟩ := initPhaseTwo_some gu gv ru gates v n alpha beta h hv hr hg
  have hq : ∀ t ∈ gates, t.right < 2 ^ n := fun t ht => (hg t ht).2.2
  have flip : ∀ (a : Nat → F) (b : Nat → F), ∑ y ∈ Finset.range (2 ^ n), a y * b y = ∑ y ∈ Finset.range (2 ^ n), b y * a y :=
    fun a b => Finset.sum_congr rfl fun _ _ => mul_comm _ _
  have t1 : mle mul rv = gateSum 1 gates fun t => gWeight gu gv alpha beta t.g * (eqWeight ru t.left * eqWeight rv t.right) := by
    unfold mle; rw [hr', flip]; simp only [h1']; rw [sum_table 1 gates _ (·.right) _ hq]
    exact gateSum_congr _ _ _ _ fun t _ _ => by ring
  have t2 : mle add rv = gateSum 0 gates fun t => gWeight gu gv alpha beta t.g * (eqWeight ru t.left * eqWeight rv t.right) := by
    unfold mle; rw [hr', flip]; simp only [h2']; rw [sum_table 0 gates _ (·.right) _ hq]
    exact gateSum_congr _ _ _ _ fun t _ _ => by ring
  refine ⟨mul, add, e', ?_, ?_, ?_⟩
  · refine (evalOperators_eq gates gu gv ru rv alpha beta h (hr.trans hr'.symm) (by rw [hr]; exact hg) (0, 0)).trans ?_
    rw [t1, t2]; simp
  · rw [t2]
    exact gateSum_wire 0 gates _ _ hg fun g x y => gWeight gu gv alpha beta g * (eqWeight ru x * eqWeight rv y)
  · rw [t1]
    exact gateSum_wire 1 gates _ _ hg fun g x y => gWeight gu gv alpha beta g * (eqWeight ru x * eqWeight rv y)

/-- Three gates over four values: the hypotheses hold. -/
def exGates : List (Nat × Nat × Nat) := [(0, 0, 1), (1, 2, 3), (1, 1, 1)]

theorem exGates_legal : ∀ g ∈ exGates, Legal (2 ^ 2) g := by simp [exGates, Legal]

example : ∃ mul add1 add2, initPhaseOne [2, 5] [3, 4] (gatesOf exGates) ([3, 5, 1, 4] : List F17) 2 6 7 = some (mul, add1, add2) ∧
    ∑ x ∈ Finset.range (2 ^ 2), (([3, 5, 1, 4] : List F17).getD x 0 * mul.getD x 0 + ([3, 5, 1, 4] : List F17).getD x 0 * add1.getD x 0 +
      add2.getD x 0) = 6 * mle [8, 4, 8] [2, 5] + 7 * mle [8, 4, 8] [3, 4] :=
  C60_claim [2, 5] [3, 4] exGates [3, 5, 1, 4] 2 6 7 rfl rfl (by simp [exGates]) exGates_legal

theorem exGates_ok : GatesOk (gatesOf exGates) (2 ^ 2) (2 ^ 2) := gatesOf_ok _ _ _ (by simp [exGates]) exGates_legal

example : ∃ mul add1 add2, initPhaseOne [2, 5] [3, 4] (gatesOf exGates) ([3, 5, 1, 4] : List F17) 2 6 7 = some (mul, add1, add2) ∧
    mul.getD 1 0 = ∑ g ∈ Finset.range (2 ^ 2), ∑ y ∈ Finset.range (2 ^ 2), wire 1 (gatesOf exGates) g 1 y *
      ((6 * eqWeight [2, 5] g + 7 * eqWeight [3, 4] g) * ([3, 5, 1, 4] : List F17).getD y 0) := by
  obtain ⟨mul, add1, add2, e, _, _, _, h⟩ :=
    C60_phase_one [2, 5] [3, 4] (gatesOf exGates) ([3, 5, 1, 4] : List F17) 2 6 7 rfl rfl exGates_ok
  exact ⟨mul, add1, add2, e, (h 1 (by decide)).1⟩

example : ∃ mul add, initPhaseTwo [2, 5] [3, 4] [8, 9] (gatesOf exGates) ([3, 5, 1, 4] : List F17) 2 6 7 =
      some (mul, add, mle [3, 5, 1, 4] [8, 9]) ∧
    evalOperators (gatesOf exGates) [2, 5] [3, 4] [8, 9] [10, 11] 6 7 = some (mle add [10, 11], mle mul [10, 11]) := by
  obtain ⟨mul, add, e, h, _⟩ :=
    C60_operators [2, 5] [3, 4] [8, 9] [10, 11] (gatesOf exGates) ([3, 5, 1, 4] : List F17) 2 6 7 rfl rfl rfl rfl exGates_ok
  exact ⟨mul, add, e, h⟩

example : ∃ mul add, initPhaseTwo [2, 5] [3, 4] [8, 9] (gatesOf exGates) ([3, 5, 1, 4] : List F17) 2 6 7 =
      some (mul, add, mle [3, 5, 1, 4] [8, 9]) ∧ mul.length = 4 := by
  obtain ⟨mul, add, e, h, _⟩ :=
    C60_phase_two [2, 5] [3, 4] [8, 9] (gatesOf exGates) ([3, 5, 1, 4] : List F17) 2 6 7 rfl rfl rfl exGates_ok
  exact ⟨mul, add, e, h⟩

example := C60_reduction [2, 5] [3, 4] [8, 9] (gatesOf exGates) ([3, 5, 1, 4] : List F17) 2 6 7 rfl rfl rfl exGates_ok

end Zkp.Gkr
