/- Sum-checks over a function of a point: sums over the hypercube, degrees, and what the checks of all rounds show. -/
import Verif.Proof.HidingSound
import Verif.Props.Hyrax

namespace Zkp.Sc

open Zkp.Ml Zkp.Spartan Zkp.Gkr Polynomial

set_option linter.unusedSectionVars false
set_option linter.unusedSimpArgs false

variable {F : Type} [Field F]

/-! ### Sums over the hypercube -/

/-- The sum of a function over all points with `n` coordinates zero or one. -/
def cube : Nat → (List F → F) → F
  | 0, f => f []
  | n + 1, f => cube n (fun r => f (0 :: r)) + cube n (fun r => f (1 :: r))

theorem cube_congr (n : Nat) (f g : List F → F) (h : ∀ r, r.length = n → f r = g r) : cube n f = cube n g := by
  induction n generalizing f g with
  | zero => exact h [] rfl
  | succ n ih =>
    simp only [cube]
    rw [ih _ (fun r => g (0 :: r)) fun r hr => h _ (by simp [hr]), ih _ (fun r => g (1 :: r)) fun r hr => h _ (by simp [hr])]

theorem cube_append (a b : Nat) (f : List F → F) : cube (a + b) f = cube a fun x => cube b fun y => f (x ++ y) := by
  induction a generalizing f with
  | zero => simp [cube]
  | succ a ih =>
    rw [show a + 1 + b = (a + b) + 1 by omega]
    simp only [cube, ih, List.cons_append]

theorem bitsOf_lo (n i : Nat) (hi : i < 2 ^ n) : (bitsOf (n + 1) i : List F) = 0 :: bitsOf n i := by
  unfold bitsOf
  rw [List.range_succ_eq_map, List.map_cons, List.map_map]
  congr 1
  · simp [Nat.testBit_lt_two_pow hi]
  · apply List.map_congr_left
    intro j hj
    simp only [Function.comp]
    rw [show n + 1 - 1 - j.succ = n - 1 - j by omega]

theorem bitsOf_hi (n i : Nat) (hi : i < 2 ^ n) : (bitsOf (n + 1) (2 ^ n + i) : List F) = 1 :: bitsOf n i := by
  unfold bitsOf
  rw [List.range_succ_eq_map, List.map_cons, List.map_map]
  congr 1
  · simp [Nat.testBit_two_pow_add_eq, Nat.testBit_lt_two_pow hi]
  · apply List.map_congr_left
    intro j hj
    have hj := List.mem_range.1 hj
    simp only [Function.comp]
    rw [show n + 1 - 1 - j.succ = n - 1 - j by omega, Nat.testBit_two_pow_add_gt (by omega)]

theorem cube_sum (n : Nat) (f : List F → F) : cube n f = ∑ i ∈ Finset.range (2 ^ n), f (bitsOf n i) := by
  induction n generalizing f with
  | zero => simp [cube, bitsOf]
  | succ n ih =>
    rw [cube, ih, ih, pow_succ, mul_two, Finset.sum_range_add]
    congr 1
    · exact Finset.sum_congr rfl fun i hi => by rw [bitsOf_lo n i (Finset.mem_range.1 hi)]
    · exact Finset.sum_congr rfl fun i hi => by rw [bitsOf_hi n i (Finset.mem_range.1 hi)]

theorem mle_bitsOf (v : List F) (n i : Nat) (hi : i < 2 ^ n) : mle v (bitsOf n i) = v.getD i 0 := by
  have hl : (bitsOf n i : List F).length = n := by simp [bitsOf]
  unfold mle
  rw [hl, Finset.sum_eq_single i]
  · rw [eqWeight_bits n i i hi hi]; simp
  · intro k hk hne
    rw [eqWeight_bits n i k hi (Finset.mem_range.1 hk), if_neg hne, mul_zero]
  · intro h; exact absurd (Finset.mem_range.2 hi) h

/-! ### Degrees -/

/-- The function is a polynomial of degree at most `d`. -/
def IsPoly (d : Nat) (f : F → F) : Prop := ∃ q : F[X], q.natDegree ≤ d ∧ ∀ x, q.eval x = f x

theorem IsPoly.const (d : Nat) (a : F) : IsPoly d fun _ => a := ⟨C a, by simp, by simp⟩

theorem IsPoly.id : IsPoly 1 fun x : F => x := ⟨X, natDegree_X_le, by simp⟩

theorem IsPoly.mono {d e : Nat} {f : F → F} (h : IsPoly d f) (hd : d ≤ e) : IsPoly e f := by
  obtain ⟨q, h1, h2⟩ := h
  exact ⟨q, h1.trans hd, h2⟩

theorem IsPoly.add {d : Nat} {f g : F → F} (hf : IsPoly d f) (hg : IsPoly d g) : IsPoly d fun x => f x + g x := by
  obtain ⟨q, h1, h2⟩ := hf
  obtain ⟨q', h1', h2'⟩ := hg
  exact ⟨q + q', (natDegree_add_le _ _).trans (max_le h1 h1'), fun x => by rw [eval_add, h2, h2']⟩

theorem IsPoly.sub {d : Nat} {f g : F → F} (hf : IsPoly d f) (hg : IsPoly d g) : IsPoly d fun x => f x - g x := by
  obtain ⟨q, h1, h2⟩ := hf
  obtain ⟨q', h1', h2'⟩ := hg
  exact ⟨q - q', (natDegree_sub_le _ _).trans (max_le h1 h1'), fun x => by rw [eval_sub, h2, h2']⟩

theorem IsPoly.mul {d e : Nat} {f g : F → F} (hf : IsPoly d f) (hg : IsPoly e g) : IsPoly (d + e) fun x => f x * g x := by
  obtain ⟨q, h1, h2⟩ := hf
  obtain ⟨q', h1', h2'⟩ := hg
  exact ⟨q * q', natDegree_mul_le.trans (Nat.add_le_add h1 h1'), fun x => by rw [eval_mul, h2, h2']⟩

theorem IsPoly.finset {d : Nat} {α : Type} (s : Finset α) (f : α → F → F) (h : ∀ a ∈ s, IsPoly d (f a)) :
    IsPoly d fun x => ∑ a ∈ s, f a x := by
  classical
  induction s using Finset.induction_on with
  | empty => simpa using IsPoly.const d (0 : F)
  | insert a s ha ih =>
    simp only [Finset.sum_insert ha]
    exact (h a (by simp)).add (ih fun b hb => h b (by simp [hb]))

theorem IsPoly.list {d : Nat} {α : Type} (l : List α) (f : α → F → F) (h : ∀ a ∈ l, IsPoly d (f a)) :
    IsPoly d fun x => (l.map fun a => f a x).sum := by
  induction l with
  | nil => simpa using IsPoly.const d (0 : F)
  | cons a l ih =>
    simp only [List.map_cons, List.sum_cons]
    exact (h a (by simp)).add (ih fun b hb => h b (by simp [hb]))

theorem IsPoly.cube {d : Nat} (n : Nat) (f : F → List F → F) (h : ∀ r, IsPoly d fun x => f x r) :
    IsPoly d fun x => Sc.cube n (f x) := by
  induction n generalizing f with
  | zero => exact h []
  | succ n ih => exact (ih (fun x r => f x (0 :: r)) fun r => h _).add (ih (fun x r => f x (1 :: r)) fun r => h _)

/-- The function has degree at most `d` in each coordinate. -/
def EachDeg (d : Nat) (f : List F → F) : Prop := ∀ pre suf, IsPoly d fun x => f (pre ++ x :: suf)

theorem eqWeight_each (i : Nat) : EachDeg 1 fun r : List F => eqWeight r i := by
  intro pre suf
  induction pre with
  | nil =>
    simp only [List.nil_append, eqWeight_cons]
    have : IsPoly 1 fun x : F => if i.testBit suf.length then x else 1 - x := by
      split
      · exact IsPoly.id
      · exact (IsPoly.const 1 1).sub IsPoly.id
    simpa using this.mul (IsPoly.const 0 (eqWeight suf i))
  | cons a pre ih =>
    simp only [List.cons_append, eqWeight_cons, List.length_append, List.length_cons]
    simpa using (IsPoly.const 0 (if i.testBit (pre.length + (suf.length + 1)) then a else 1 - a)).mul ih

theorem mle_each (v : List F) : EachDeg 1 fun r : List F => mle v r := by
  intro pre suf
  unfold mle
  simp only [List.length_append, List.length_cons]
  exact IsPoly.finset _ _ fun i _ => by simpa using (IsPoly.const 0 (v.getD i 0)).mul (eqWeight_each i pre suf)

/-- A part of a point, and what it is when one coordinate varies. -/
theorem part_poly {f : List F → F} (hf : EachDeg 1 f) {s : F → List F} (h : (∃ c, ∀ x, s x = c) ∨ ∃ pre suf, ∀ x, s x = pre ++ x :: suf) :
    IsPoly 1 fun x => f (s x) := by
  rcases h with ⟨c, h⟩ | ⟨pre, suf, h⟩
  · simp only [h]; exact IsPoly.const _ _
  · simp only [h]; exact hf pre suf

/-! ### The rounds -/

section
variable [DecidableEq F]

/-- The challenges of a round that turn a false claim about the rest into a true one. -/
noncomputable def badCube (f : List F → F) (m : Nat) (p vs : List F) : Finset F :=
  fewRoots 3 fun x => polyEval p x = cube (m - vs.length - 1) fun s => f (vs ++ x :: s)

/-- If the polynomials of all rounds are consistent with one another and with the function at the point of the challenges,
the first claim is the sum over the hypercube, or some challenge was bad. -/
theorem cube_sound {f : List F → F} (hf : EachDeg 3 f) (m : Nat) (hm : 1 ≤ m) (p : Nat → List F) (r : List F) (hr : r.length = m)
    (hp : ∀ t < m, (p t).length ≤ 4) (claim : F) (h0 : polyEval (p 0) 0 + polyEval (p 0) 1 = claim)
    (hs : ∀ t, t + 1 < m → polyEval (p (t + 1)) 0 + polyEval (p (t + 1)) 1 = polyEval (p t) (r.getD t 0))
    (hl : polyEval (p (m - 1)) (r.getD (m - 1) 0) = f r) :
    claim = cube m f ∨ ∃ t < m, r.getD t 0 ∈ badCube f m (p t) (r.take t) := by
  by_cases hbad : ∃ t < m, r.getD t 0 ∈ badCube f m (p t) (r.take t)
  · exact Or.inr hbad
  left
  push Not at hbad
  -- one round
  have step : ∀ t < m, polyEval (p t) (r.getD t 0) = cube (m - t - 1) (fun s => f (r.take t ++ r.getD t 0 :: s)) →
      polyEval (p t) 0 + polyEval (p t) 1 = cube (m - t) fun s => f (r.take t ++ s) := by
    intro t ht heq
    by_contra hne
    apply hbad t ht
    have hlen : (r.take t).length = t := by simp; omega
    obtain ⟨q, hq1, hq2⟩ := listPoly (p t) 3 (by have := hp t ht; omega)
    obtain ⟨q', hq1', hq2'⟩ := IsPoly.cube (m - t - 1) (fun x s => f (r.take t ++ x :: s)) fun s => hf _ _
    unfold badCube
    rw [hlen]
    refine fewRoots_mem (q - q') ?_ (sub_deg hq1 hq1') (fun x hx => by rw [eval_sub, hq2, hq2', hx, sub_self]) heq
    intro h
    apply hne
    have h : q = q' := sub_eq_zero.1 h
    rw [← hq2, ← hq2, h, hq2', hq2', show m - t = (m - t - 1) + 1 by omega]
    rfl
  have all : ∀ j < m, polyEval (p (m - 1 - j)) (r.getD (m - 1 - j) 0) =
      cube (m - (m - 1 - j) - 1) fun s => f (r.take (m - 1 - j) ++ r.getD (m - 1 - j) 0 :: s) := by
    intro j
    induction j with
    | zero =>
      intro _
      have : m - (m - 1) - 1 = 0 := by omega
      rw [Nat.sub_zero, hl, this]
      have hsplit : r = r.take (m - 1) ++ [r.getD (m - 1) 0] := by
        rw [List.getD_eq_getElem _ _ (by omega)]
        conv_lhs => rw [← List.take_append_drop (m - 1) r]
        congr 1
        rw [List.drop_eq_getElem_cons (by omega), List.drop_of_length_le (by omega)]
      show f r = f _
      rw [← hsplit]
    | succ j ih =>
      intro hj
      have e := step (m - 1 - j) (by omega) (ih (by omega))
      obtain ⟨t, ht⟩ : ∃ t, m - 1 - j = t + 1 := ⟨m - 2 - j, by omega⟩
      rw [ht] at e
      rw [show m - 1 - (j + 1) = t by omega, ← hs t (by omega), e, show m - (t + 1) = m - t - 1 by omega]
      apply cube_congr
      intro s _
      congr 1
      have ht' : t < r.length := by omega
      rw [List.take_succ_eq_append_getElem ht', List.getD_eq_getElem _ _ ht', List.append_assoc]
      rfl
  have e := step 0 (by omega) (by
    have := all (m - 1) (by omega)
    simpa using this)
  rw [← h0, e]
  simp

end

end Zkp.Sc

namespace Zkp.Hx

open Zkp.Ml Zkp.Spartan Zkp.Gkr Zkp.Sc

set_option linter.unusedSectionVars false
set_option linter.unusedSimpArgs false

variable {F : Type} [Field F]

/-! ### The function of a layer -/

/-- What the three sum-checks of a layer sum, as a function of the point; `V` is the extension of the values below. -/
def layerFn (qa ql qr : List F) (u0 u1 : F) (gates : List Gate) (V : List F → F) (a b : Nat) (l : List F) : F :=
  (gates.map fun t => (mle ((List.range (2 ^ qa.length)).map (eqWeight qa)) (l.take a) *
    (u0 * eqWeight ql t.g + u1 * eqWeight qr t.g) * eqWeight ((l.drop a).take b) t.left * eqWeight (l.drop (a + b)) t.right) *
    (if t.op = 0 then V (l.take (a + b)) + V (l.take a ++ l.drop (a + b))
     else if t.op = 1 then V (l.take (a + b)) * V (l.take a ++ l.drop (a + b)) else 0)).sum

theorem take_part (n : Nat) (pre suf : List F) : (pre.length < n ∧ ∀ x, (pre ++ x :: suf).take n = pre ++ x :: suf.take (n - pre.length - 1)) ∨
    (n ≤ pre.length ∧ ∀ x, (pre ++ x :: suf).take n = pre.take n) := by
  by_cases h : pre.length < n
  · refine Or.inl ⟨h, fun x => ?_⟩
    obtain ⟨k, rfl⟩ : ∃ k, n = pre.length + (k + 1) := ⟨n - pre.length - 1, by omega⟩
    rw [List.take_length_add_append, List.take_succ_cons]
    congr 3
    omega
  · refine Or.inr ⟨by omega, fun x => ?_⟩
    rw [List.take_append_of_le_length (by omega)]

theorem drop_part (n : Nat) (pre suf : List F) : (pre.length < n ∧ ∀ x, (pre ++ x :: suf).drop n = suf.drop (n - pre.length - 1)) ∨
    (n ≤ pre.length ∧ ∀ x, (pre ++ x :: suf).drop n = pre.drop n ++ x :: suf) := by
  by_cases h : pre.length < n
  · refine Or.inl ⟨h, fun x => ?_⟩
    obtain ⟨k, rfl⟩ : ∃ k, n = pre.length + (k + 1) := ⟨n - pre.length - 1, by omega⟩
    rw [List.drop_length_add_append, List.drop_succ_cons]
    congr 1
    omega
  · refine Or.inr ⟨by omega, fun x => ?_⟩
    rw [List.drop_append_of_le_length (by omega)]

theorem layerFn_each (qa ql qr : List F) (u0 u1 : F) (gates : List Gate) {V : List F → F} (hV : EachDeg 1 V) (a b : Nat) :
    EachDeg 3 (layerFn qa ql qr u0 u1 gates V a b) := by
  intro pre suf
  unfold layerFn
  refine IsPoly.list gates _ fun t _ => ?_
  have hW : ∀ x, (pre ++ x :: suf).take (a + b) = (pre ++ x :: suf).take a ++ ((pre ++ x :: suf).drop a).take b := fun x =>
    List.take_add
  -- the values below
  have v1 : IsPoly 1 fun x => V ((pre ++ x :: suf).take (a + b)) := by
    rcases take_part (a + b) pre suf with ⟨_, h⟩ | ⟨_, h⟩
    · exact part_poly hV (Or.inr ⟨_, _, h⟩)
    · exact part_poly hV (Or.inl ⟨_, h⟩)
  have v2 : IsPoly 1 fun x => V ((pre ++ x :: suf).take a ++ (pre ++ x :: suf).drop (a + b)) := by
    rcases take_part a pre suf with ⟨h1, h⟩ | ⟨h1, h⟩
    · rcases drop_part (a + b) pre suf with ⟨h2, h'⟩ | ⟨h2, h'⟩
      · exact part_poly hV (Or.inr ⟨pre, suf.take (a - pre.length - 1) ++ suf.drop (a + b - pre.length - 1), fun x => by rw [h, h']; simp⟩)
      · omega
    · rcases drop_part (a + b) pre suf with ⟨h2, h'⟩ | ⟨h2, h'⟩
      · exact part_poly hV (Or.inl ⟨_, fun x => by rw [h, h']⟩)
      · exact part_poly hV (Or.inr ⟨pre.take a ++ pre.drop (a + b), suf, fun x => by rw [h, h']; simp⟩)
  have hop : IsPoly 2 fun x => if t.op = 0 then V ((pre ++ x :: suf).take (a + b)) + V ((pre ++ x :: suf).take a ++ (pre ++ x :: suf).drop (a + b))
     else if t.op = 1 then V ((pre ++ x :: suf).take (a + b)) * V ((pre ++ x :: suf).take a ++ (pre ++ x :: suf).drop (a + b)) else 0 := by
    split
    · exact (v1.add v2).mono (by omega)
    · split
      · exact v1.mul v2
      · exact IsPoly.const _ _
  -- the weights
  suffices hw : IsPoly 1 fun x => mle ((List.range (2 ^ qa.length)).map (eqWeight qa)) ((pre ++ x :: suf).take a) *
      (u0 * eqWeight ql t.g + u1 * eqWeight qr t.g) * eqWeight (((pre ++ x :: suf).drop a).take b) t.left *
      eqWeight ((pre ++ x :: suf).drop (a + b)) t.right from hw.mul hop
  rcases take_part a pre suf with ⟨h1, e1⟩ | ⟨h1, e1⟩
  · rcases drop_part a pre suf with ⟨h2, e2⟩ | ⟨h2, e2⟩
    · rcases drop_part (a + b) pre suf with ⟨h3, e3⟩ | ⟨h3, e3⟩
      · simp only [e1, e2, e3]
        exact (((mle_each _ _ _).mul (IsPoly.const 0 _)).mul (IsPoly.const 0 _)).mul (IsPoly.const 0 _)
      · omega
    · omega
  · rcases drop_part a pre suf with ⟨h2, e2⟩ | ⟨h2, e2⟩
    · omega
    · rcases drop_part (a + b) pre suf with ⟨h3, e3⟩ | ⟨h3, e3⟩
      · simp only [e1, e2, e3]
        refine IsPoly.mul (d := 1) (e := 0) (IsPoly.mul (d := 0) (e := 1) (IsPoly.const 0 _) ?_) (IsPoly.const 0 _)
        rcases take_part b (pre.drop a) suf with ⟨h4, e4⟩ | ⟨h4, e4⟩
        · simp only [e4]; exact eqWeight_each _ _ _
        · simp only [e4]; exact IsPoly.const _ _
      · simp only [e1, e2, e3]
        refine IsPoly.mul (d := 0) (e := 1) (IsPoly.mul (d := 0) (e := 0) (IsPoly.const 0 _) ?_) (eqWeight_each _ _ _)
        have hlen : b ≤ (pre.drop a).length := by simp; omega
        simp only [List.take_append_of_le_length hlen]
        exact IsPoly.const _ _

end Zkp.Hx
