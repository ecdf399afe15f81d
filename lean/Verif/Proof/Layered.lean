/- The gate tables of Libra as sums over the gates. -/
import Verif.Model.Layered
import Verif.Proof.Multilinear
import Verif.Proof.SumCheck

namespace Zkp.Gkr

open Zkp.Ml Zkp.Spartan Zkp.Sc

set_option linter.unusedSectionVars false
set_option linter.unusedSimpArgs false

variable {F : Type} [Field F]

/-- A gate that refers to output position `g < k` and to positions below `n`. -/
def GatesOk (gates : List Gate) (k n : Nat) : Prop := ∀ t ∈ gates, t.g < k ∧ t.left < n ∧ t.right < n

/-- The sum over the gates with operator `op`. -/
def gateSum (op : Nat) (gates : List Gate) (h : Gate → F) : F :=
  (gates.map fun t => if t.op = op then h t else 0).sum

theorem gateSum_cons (op : Nat) (t : Gate) (gates : List Gate) (h : Gate → F) :
    gateSum op (t :: gates) h = (if t.op = op then h t else 0) + gateSum op gates h := by simp [gateSum]

theorem gateSum_congr (op : Nat) (gates : List Gate) (h h' : Gate → F) (e : ∀ t ∈ gates, t.op = op → h t = h' t) :
    gateSum op gates h = gateSum op gates h' := by
  unfold gateSum
  congr 1
  apply List.map_congr_left
  intro t ht
  split
  · exact e t ht ‹_›
  · rfl

theorem gateSum_mul (op : Nat) (gates : List Gate) (h : Gate → F) (x : F) :
    x * gateSum op gates h = gateSum op gates fun t => x * h t := by
  induction gates with
  | nil => simp [gateSum]
  | cons t l ih => rw [gateSum_cons, gateSum_cons, mul_add, ih]; congr 1; split <;> simp

theorem gateSum_add (op : Nat) (gates : List Gate) (h h' : Gate → F) :
    gateSum op gates h + gateSum op gates h' = gateSum op gates fun t => h t + h' t := by
  induction gates with
  | nil => simp [gateSum]
  | cons t l ih =>
    rw [gateSum_cons, gateSum_cons, gateSum_cons, ← ih]
    split <;> ring

/-- Summing against a table of the gates by one of their positions. -/
theorem sum_table (op : Nat) (gates : List Gate) (h : Gate → F) (pos : Gate → Nat) (N : Nat)
    (hp : ∀ t ∈ gates, pos t < N) (k : Nat → F) :
    ∑ x ∈ Finset.range N, k x * gateSum op gates (fun t => if pos t = x then h t else 0) =
      gateSum op gates fun t => k (pos t) * h t := by
  induction gates with
  | nil => simp [gateSum]
  | cons t l ih =>
    simp only [gateSum_cons, mul_add, Finset.sum_add_distrib]
    rw [ih fun t ht => hp t (by simp [ht])]
    congr 1
    by_cases ho : t.op = op
    · simp only [ho, if_true]
      have : ∀ x, k x * (if pos t = x then h t else 0) = if pos t = x then k x * h t else 0 := by
        intro x; split <;> simp
      simp only [this]
      rw [Finset.sum_ite_eq]
      simp [hp t (by simp)]
    · simp [ho]

theorem getD_modify_add (v : List F) (i x : Nat) (a : F) (hi : i < v.length) :
    (v.modify i (· + a)).getD x 0 = v.getD x 0 + if i = x then a else 0 := by
  rw [List.getD_eq_getElem?_getD, List.getElem?_modify, List.getD_eq_getElem?_getD]
  by_cases h : i = x
  · subst h
    simp [hi]
  · simp [h]

theorem addAt_some (v : List F) (i : Nat) (a : F) (hi : i < v.length) :
    addAt v i a = some (v.modify i (· + a)) := by simp [addAt, hi]

/-- The step of `evalHg`. -/
def hgStep (evalsG v : List F) (acc : List F × List F × List F) (g : Gate) : Option (List F × List F × List F) := do
  if g.op = 1 then some (← addAt acc.1 g.left ((← evalsG[g.g]?) * (← v[g.right]?)), acc.2)
  else if g.op = 0 then
    some (acc.1, ← addAt acc.2.1 g.left (← evalsG[g.g]?),
      ← addAt acc.2.2 g.left ((← evalsG[g.g]?) * (← v[g.right]?)))
  else some acc

theorem evalHg_def (eg v : List F) (gates : List Gate) (n : Nat) :
    evalHg eg v gates n = gates.foldlM (hgStep eg v)
      (List.replicate (2 ^ n) 0, List.replicate (2 ^ n) 0, List.replicate (2 ^ n) 0) := rfl

theorem getElem?_getD {v : List F} {i : Nat} (h : i < v.length) : v[i]? = some (v.getD i 0) := by
  simp [List.getD_eq_getElem?_getD, h]

theorem hgLoop (eg v : List F) (gates : List Gate) (N : Nat)
    (hg : ∀ t ∈ gates, t.g < eg.length ∧ t.left < N ∧ t.right < v.length) (a b c : List F)
    (ha : a.length = N) (hb : b.length = N) (hc : c.length = N) :
    ∃ a' b' c', gates.foldlM (hgStep eg v) (a, b, c) = some (a', b', c') ∧
      a'.length = N ∧ b'.length = N ∧ c'.length = N ∧
      (∀ x, a'.getD x 0 = a.getD x 0 +
        gateSum 1 gates fun t => if t.left = x then eg.getD t.g 0 * v.getD t.right 0 else 0) ∧
      (∀ x, b'.getD x 0 = b.getD x 0 + gateSum 0 gates fun t => if t.left = x then eg.getD t.g 0 else 0) ∧
      (∀ x, c'.getD x 0 = c.getD x 0 +
        gateSum 0 gates fun t => if t.left = x then eg.getD t.g 0 * v.getD t.right 0 else 0) := by
  induction gates generalizing a b c with
  | nil => exact ⟨a, b, c, rfl, ha, hb, hc, by simp [gateSum], by simp [gateSum], by simp [gateSum]⟩
  | cons t l ih =>
    obtain ⟨h1, h2, h3⟩ := hg t (by simp)
    have hl := fun t ht => hg t (List.mem_cons_of_mem _ ht)
    rw [List.foldlM_cons]
    by_cases o1 : t.op = 1
    · have e : hgStep eg v (a, b, c) t = some (a.modify t.left (· + eg.getD t.g 0 * v.getD t.right 0), b, c) := by
        unfold hgStep
        rw [if_pos o1, getElem?_getD h1, getElem?_getD h3]
        simp only [Option.bind_eq_bind, Option.bind_some]
        rw [addAt_some _ _ _ (by omega)]
        rfl
      rw [e]
      obtain ⟨a', b', c', r1, r2, r3, r4, r5, r6, r7⟩ := ih hl (a.modify t.left (· + eg.getD t.g 0 * v.getD t.right 0)) b c
        (by simpa using ha) hb hc
      refine ⟨a', b', c', r1, r2, r3, r4, fun x => ?_, fun x => ?_, fun x => ?_⟩
      · rw [r5, getD_modify_add _ _ _ _ (by omega), gateSum_cons, if_pos o1, add_assoc]
      · rw [r6, gateSum_cons]; simp [o1]
      · rw [r7, gateSum_cons]; simp [o1]
    · by_cases o0 : t.op = 0
      · have e : hgStep eg v (a, b, c) t = some (a, b.modify t.left (· + eg.getD t.g 0),
            c.modify t.left (· + eg.getD t.g 0 * v.getD t.right 0)) := by
          unfold hgStep
          rw [if_neg o1, if_pos o0, getElem?_getD h1, getElem?_getD h3]
          simp only [Option.bind_eq_bind, Option.bind_some]
          rw [addAt_some _ _ _ (by omega), addAt_some _ _ _ (by omega)]
          rfl
        rw [e]
        obtain ⟨a', b', c', r1, r2, r3, r4, r5, r6, r7⟩ := ih hl a (b.modify t.left (· + eg.getD t.g 0))
          (c.modify t.left (· + eg.getD t.g 0 * v.getD t.right 0)) ha (by simpa using hb) (by simpa using hc)
        refine ⟨a', b', c', r1, r2, r3, r4, fun x => ?_, fun x => ?_, fun x => ?_⟩
        · rw [r5, gateSum_cons]; simp [o1, o0]
        · rw [r6, getD_modify_add _ _ _ _ (by omega), gateSum_cons, if_pos o0, add_assoc]
        · rw [r7, getD_modify_add _ _ _ _ (by omega), gateSum_cons, if_pos o0, add_assoc]
      · have e : hgStep eg v (a, b, c) t = some (a, b, c) := by
          unfold hgStep; rw [if_neg o1, if_neg o0]
        rw [e]
        obtain ⟨a', b', c', r1, r2, r3, r4, r5, r6, r7⟩ := ih hl a b c ha hb hc
        refine ⟨a', b', c', r1, r2, r3, r4, fun x => ?_, fun x => ?_, fun x => ?_⟩
        · rw [r5, gateSum_cons]; simp [o1]
        · rw [r6, gateSum_cons]; simp [o0]
        · rw [r7, gateSum_cons]; simp [o0]

/-- The step of `evalFgu`. -/
def fguStep (evalsG ru : List F) (acc : List F × List F) (g : Gate) : Option (List F × List F) := do
  if g.op = 1 then some (← addAt acc.1 g.right ((← evalsG[g.g]?) * (← ru[g.left]?)), acc.2)
  else if g.op = 0 then some (acc.1, ← addAt acc.2 g.right ((← evalsG[g.g]?) * (← ru[g.left]?)))
  else some acc

theorem evalFgu_def (eg ru : List F) (gates : List Gate) (n : Nat) :
    evalFgu eg ru gates n = gates.foldlM (fguStep eg ru) (List.replicate (2 ^ n) 0, List.replicate (2 ^ n) 0) := rfl

theorem fguLoop (eg ru : List F) (gates : List Gate) (N : Nat)
    (hg : ∀ t ∈ gates, t.g < eg.length ∧ t.left < ru.length ∧ t.right < N) (a b : List F)
    (ha : a.length = N) (hb : b.length = N) :
    ∃ a' b', gates.foldlM (fguStep eg ru) (a, b) = some (a', b') ∧ a'.length = N ∧ b'.length = N ∧
      (∀ x, a'.getD x 0 = a.getD x 0 +
        gateSum 1 gates fun t => if t.right = x then eg.getD t.g 0 * ru.getD t.left 0 else 0) ∧
      (∀ x, b'.getD x 0 = b.getD x 0 +
        gateSum 0 gates fun t => if t.right = x then eg.getD t.g 0 * ru.getD t.left 0 else 0) := by
  induction gates generalizing a b with
  | nil => exact ⟨a, b, rfl, ha, hb, by simp [gateSum], by simp [gateSum]⟩
  | cons t l ih =>
    obtain ⟨h1, h2, h3⟩ := hg t (by simp)
    have hl := fun t ht => hg t (List.mem_cons_of_mem _ ht)
    rw [List.foldlM_cons]
    by_cases o1 : t.op = 1
    · have e : fguStep eg ru (a, b) t = some (a.modify t.right (· + eg.getD t.g 0 * ru.getD t.left 0), b) := by
        unfold fguStep
        rw [if_pos o1, getElem?_getD h1, getElem?_getD h2]
        simp only [Option.bind_eq_bind, Option.bind_some]
        rw [addAt_some _ _ _ (by omega)]
        rfl
      rw [e]
      obtain ⟨a', b', r1, r2, r3, r5, r6⟩ := ih hl (a.modify t.right (· + eg.getD t.g 0 * ru.getD t.left 0)) b
        (by simpa using ha) hb
      refine ⟨a', b', r1, r2, r3, fun x => ?_, fun x => ?_⟩
      · rw [r5, getD_modify_add _ _ _ _ (by omega), gateSum_cons, if_pos o1, add_assoc]
      · rw [r6, gateSum_cons]; simp [o1]
    · by_cases o0 : t.op = 0
      · have e : fguStep eg ru (a, b) t = some (a, b.modify t.right (· + eg.getD t.g 0 * ru.getD t.left 0)) := by
          unfold fguStep
          rw [if_neg o1, if_pos o0, getElem?_getD h1, getElem?_getD h2]
          simp only [Option.bind_eq_bind, Option.bind_some]
          rw [addAt_some _ _ _ (by omega)]
          rfl
        rw [e]
        obtain ⟨a', b', r1, r2, r3, r5, r6⟩ := ih hl a (b.modify t.right (· + eg.getD t.g 0 * ru.getD t.left 0))
          ha (by simpa using hb)
        refine ⟨a', b', r1, r2, r3, fun x => ?_, fun x => ?_⟩
        · rw [r5, gateSum_cons]; simp [o1]
        · rw [r6, getD_modify_add _ _ _ _ (by omega), gateSum_cons, if_pos o0, add_assoc]
      · have e : fguStep eg ru (a, b) t = some (a, b) := by
          unfold fguStep; rw [if_neg o1, if_neg o0]
        rw [e]
        obtain ⟨a', b', r1, r2, r3, r5, r6⟩ := ih hl a b ha hb
        refine ⟨a', b', r1, r2, r3, fun x => ?_, fun x => ?_⟩
        · rw [r5, gateSum_cons]; simp [o1]
        · rw [r6, gateSum_cons]; simp [o0]

/-- The weight of output position `g`. -/
def gWeight (gu gv : List F) (alpha beta : F) (g : Nat) : F := alpha * eqWeight gu g + beta * eqWeight gv g

theorem evalsG_some (gu gv : List F) (alpha beta : F) (h : gu.length = gv.length) :
    ∃ eg, evalsG gu gv alpha beta = some eg ∧ eg.length = 2 ^ gu.length ∧
      ∀ g < 2 ^ gu.length, eg.getD g 0 = gWeight gu gv alpha beta g := by
  refine ⟨List.zipWith (fun u v => alpha * u + beta * v) (evalEq gu) (evalEq gv), ?_, ?_, ?_⟩
  · unfold evalsG; rw [if_pos (by simp [evalEq_length, h])]
  · simp [evalEq_length, h]
  · intro g hg
    rw [List.getD_eq_getElem?_getD, List.getElem?_zipWith, evalEq_getElem? gu g hg, evalEq_getElem? gv g (h ▸ hg)]
    rfl

theorem replicate_getD (n x : Nat) : (List.replicate n (0 : F)).getD x 0 = 0 := by
  by_cases h : x < n <;> simp [List.getD_eq_getElem?_getD, h]

/-- The tables of phase one. -/
theorem initPhaseOne_some (gu gv : List F) (gates : List Gate) (v : List F) (n : Nat) (alpha beta : F)
    (h : gu.length = gv.length) (hv : v.length = 2 ^ n) (hg : GatesOk gates (2 ^ gu.length) (2 ^ n)) :
    ∃ mul add1 add2, initPhaseOne gu gv gates v n alpha beta = some (mul, add1, add2) ∧
      mul.length = 2 ^ n ∧ add1.length = 2 ^ n ∧ add2.length = 2 ^ n ∧
      (∀ x, mul.getD x 0 =
        gateSum 1 gates fun t => if t.left = x then gWeight gu gv alpha beta t.g * v.getD t.right 0 else 0) ∧
      (∀ x, add1.getD x 0 = gateSum 0 gates fun t => if t.left = x then gWeight gu gv alpha beta t.g else 0) ∧
      (∀ x, add2.getD x 0 =
        gateSum 0 gates fun t => if t.left = x then gWeight gu gv alpha beta t.g * v.getD t.right 0 else 0) := by
  obtain ⟨eg, e1, e2, e3⟩ := evalsG_some gu gv alpha beta h
  obtain ⟨a, b, c, r1, r2, r3, r4, r5, r6, r7⟩ := hgLoop eg v gates (2 ^ n)
    (fun t ht => ⟨e2 ▸ (hg t ht).1, (hg t ht).2.1, hv ▸ (hg t ht).2.2⟩) (List.replicate (2 ^ n) 0)
    (List.replicate (2 ^ n) 0) (List.replicate (2 ^ n) 0) (by simp) (by simp) (by simp)
  refine ⟨a, b, c, ?_, r2, r3, r4, ?_, ?_, ?_⟩
  · unfold initPhaseOne
    rw [e1]
    exact (evalHg_def eg v gates n).trans r1
  · intro x
    rw [r5, replicate_getD, zero_add]
    exact gateSum_congr _ _ _ _ fun t ht _ => by rw [e3 _ (hg t ht).1]
  · intro x
    rw [r6, replicate_getD, zero_add]
    exact gateSum_congr _ _ _ _ fun t ht _ => by rw [e3 _ (hg t ht).1]
  · intro x
    rw [r7, replicate_getD, zero_add]
    exact gateSum_congr _ _ _ _ fun t ht _ => by rw [e3 _ (hg t ht).1]

theorem evalEq_getD (r : List F) (i : Nat) (h : i < 2 ^ r.length) : (evalEq r).getD i 0 = eqWeight r i := by
  rw [List.getD_eq_getElem?_getD, evalEq_getElem? r i h]; rfl

/-- The tables of phase two. -/
theorem initPhaseTwo_some (gu gv ru : List F) (gates : List Gate) (v : List F) (n : Nat) (alpha beta : F)
    (h : gu.length = gv.length) (hv : v.length = 2 ^ n) (hr : ru.length = n)
    (hg : GatesOk gates (2 ^ gu.length) (2 ^ n)) :
    ∃ mul add, initPhaseTwo gu gv ru gates v n alpha beta = some (mul, add, mle v ru) ∧
      mul.length = 2 ^ n ∧ add.length = 2 ^ n ∧
      (∀ y, mul.getD y 0 =
        gateSum 1 gates fun t => if t.right = y then gWeight gu gv alpha beta t.g * eqWeight ru t.left else 0) ∧
      (∀ y, add.getD y 0 =
        gateSum 0 gates fun t => if t.right = y then gWeight gu gv alpha beta t.g * eqWeight ru t.left else 0) := by
  obtain ⟨eg, e1, e2, e3⟩ := evalsG_some gu gv alpha beta h
  obtain ⟨a, b, r1, r2, r3, r5, r6⟩ := fguLoop eg (evalEq ru) gates (2 ^ n)
    (fun t ht => ⟨e2 ▸ (hg t ht).1, by rw [evalEq_length, hr]; exact (hg t ht).2.1, (hg t ht).2.2⟩)
    (List.replicate (2 ^ n) 0) (List.replicate (2 ^ n) 0) (by simp) (by simp)
  have hm : (List.zipWith (· * ·) v (evalEq ru)).sum = mle v ru := by
    have := evalValue_eq v ru (by rw [hv, hr])
    unfold evalValue at this
    simp only [evalEq_length, hv, hr, le_refl, if_true] at this
    exact Option.some.inj this
  refine ⟨a, b, ?_, r2, r3, ?_, ?_⟩
  · unfold initPhaseTwo
    simp only [evalEq_length, hv, hr, ne_eq, not_true, if_false]
    rw [e1, hm]
    simp only [Option.bind_eq_bind, Option.bind_some]
    rw [evalFgu_def, r1]
    rfl
  · intro x
    rw [r5, replicate_getD, zero_add]
    exact gateSum_congr _ _ _ _ fun t ht _ => by
      rw [e3 _ (hg t ht).1, evalEq_getD _ _ (by rw [hr]; exact (hg t ht).2.1)]
  · intro x
    rw [r6, replicate_getD, zero_add]
    exact gateSum_congr _ _ _ _ fun t ht _ => by
      rw [e3 _ (hg t ht).1, evalEq_getD _ _ (by rw [hr]; exact (hg t ht).2.1)]

end Zkp.Gkr
