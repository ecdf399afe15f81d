/- Helper lemmas about linear combinations. -/
import Verif.Spec.Lin
import Mathlib.Tactic.Ring
import Mathlib.Tactic.LinearCombination

set_option linter.unusedSectionVars false
set_option linter.unusedSimpArgs false

namespace Zkp

variable {F : Type} [Field F]

theorem Index.cmp_eq {a b : Index} : a.cmp b = .eq → a = b := by
  cases a <;> cases b <;> simp [Index.cmp, Nat.compare_eq_eq]

theorem Index.cmp_self (a : Index) : a.cmp a = .eq := by
  cases a <;> simp [Index.cmp]

theorem Index.cmp_lt_le {a b : Index} : a.cmp b = .lt → a.Le b := by
  cases a <;> cases b <;> simp [Index.cmp, Index.Le, Nat.compare_eq_lt] <;> omega

theorem Index.cmp_gt_le {a b : Index} : a.cmp b = .gt → b.Le a := by
  cases a <;> cases b <;> simp [Index.cmp, Index.Le, Nat.compare_eq_gt] <;> omega

theorem Index.cmp_ne_lt_le {a b : Index} (h : a.cmp b ≠ .lt) : b.Le a := by
  revert h
  cases a <;> cases b <;> simp [Index.cmp, Index.Le, Nat.compare_eq_lt]

theorem Index.cmp_gt_not_le {a b : Index} : a.cmp b = .gt → ¬ a.Le b := by
  cases a <;> cases b <;> simp [Index.cmp, Index.Le, Nat.compare_eq_gt]

theorem Index.cmp_lt_not_le {a b : Index} : a.cmp b = .lt → ¬ b.Le a := by
  cases a <;> cases b <;> simp [Index.cmp, Index.Le, Nat.compare_eq_lt]

theorem Index.Le.trans {a b c : Index} (h1 : a.Le b) (h2 : b.Le c) : a.Le c := by
  cases a <;> cases b <;> cases c <;> simp_all [Index.Le]; all_goals omega

theorem Index.Le.refl (a : Index) : a.Le a := by cases a <;> simp [Index.Le]

theorem Index.Le.antisymm {a b : Index} (h1 : a.Le b) (h2 : b.Le a) : a = b := by
  cases a <;> cases b <;> simp_all [Index.Le]; all_goals omega

namespace LC

@[simp] theorem eval_nil (w : Index → F) : LC.eval w ([] : LC F) = 0 := by simp [LC.eval]

@[simp] theorem eval_zero (w : Index → F) : LC.eval w (LC.zero : LC F) = 0 := by
  simp [LC.zero]

@[simp] theorem eval_cons (w : Index → F) (t : Index × F) (l : LC F) :
    LC.eval w (t :: l) = t.2 * w t.1 + LC.eval w l := by simp [LC.eval]

theorem eval_append (w : Index → F) (a b : LC F) :
    LC.eval w (a ++ b) = LC.eval w a + LC.eval w b := by simp [LC.eval]

@[simp] theorem eval_ofVar (w : Index → F) (v : Index) : (LC.ofVar v : LC F).eval w = w v := by
  simp [LC.ofVar]

@[simp] theorem eval_ofTerm (w : Index → F) (c : F) (v : Index) :
    (LC.ofTerm c v : LC F).eval w = c * w v := by
  simp [LC.ofTerm]

@[simp] theorem eval_neg (w : Index → F) (l : LC F) : l.neg.eval w = - l.eval w := by
  induction l with
  | nil => simp [LC.neg]
  | cons t l ih =>
    simp only [LC.neg, List.map_cons, eval_cons] at ih ⊢
    rw [ih]; ring

@[simp] theorem eval_double (w : Index → F) (l : LC F) :
    l.double.eval w = l.eval w + l.eval w := by
  induction l with
  | nil => simp [LC.double]
  | cons t l ih =>
    simp only [LC.double, List.map_cons, eval_cons] at ih ⊢
    rw [ih]; ring

@[simp] theorem eval_scale (w : Index → F) (l : LC F) (s : F) :
    (l.scale s).eval w = s * l.eval w := by
  induction l with
  | nil => simp [LC.scale]
  | cons t l ih =>
    simp only [LC.scale, List.map_cons, eval_cons] at ih ⊢
    rw [ih]; ring

theorem eval_insertIdx (w : Index → F) (l : LC F) (i : Nat) (t : Index × F) (h : i ≤ l.length) :
    LC.eval w (l.insertIdx i t) = t.2 * w t.1 + l.eval w := by
  induction l generalizing i with
  | nil => have : i = 0 := by simpa using h
           subst this; simp
  | cons a l ih =>
    cases i with
    | zero => simp
    | succ i =>
      simp only [List.insertIdx_succ_cons, eval_cons]
      rw [ih i (by simpa using h)]; ring

theorem eval_modify (w : Index → F) (l : LC F) (i : Nat) (c : F) (h : i < l.length) :
    LC.eval w (l.modify i fun t => (t.1, t.2 + c)) = c * w (l[i]).1 + l.eval w := by
  induction l generalizing i with
  | nil => simp at h
  | cons a l ih =>
    cases i with
    | zero => simp; ring
    | succ i =>
      simp only [List.modify_succ_cons, eval_cons, List.getElem_cons_succ]
      rw [ih i (by simpa using h)]; ring

theorem scanLoc_le (v : Index) (l : LC F) : LC.scanLoc v l ≤ l.length := by
  induction l with
  | nil => simp [LC.scanLoc]
  | cons t l ih => simp only [LC.scanLoc]; split <;> simp; exact ih

/-- What binary search returns on any list. -/
theorem binSearch_spec (l : LC F) (v : Index) (left right : Nat) (h : right ≤ l.length)
    (hl : left ≤ right) :
    match LC.binSearch l v left right h with
    | .inl i => ∃ hi : i < l.length, (l[i]).1 = v
    | .inr i => i ≤ l.length := by
  fun_induction LC.binSearch l v left right h with
  | case1 left right h hlt hm heq ih => exact ih (by omega)
  | case2 left right h hlt hm heq ih => exact ih (by omega)
  | case3 left right h hlt hm heq => exact ⟨hm, Index.cmp_eq heq⟩
  | case4 left right h hlt => simp; omega

theorem getVarLoc_spec (l : LC F) (v : Index) :
    match l.getVarLoc v with
    | .inl i => ∃ hi : i < l.length, (l[i]).1 = v
    | .inr i => i ≤ l.length := by
  unfold LC.getVarLoc
  by_cases h : l.length < 6
  · rw [if_pos h]; exact scanLoc_le v l
  · rw [if_neg h]; exact binSearch_spec l v 0 l.length (Nat.le_refl _) (Nat.zero_le _)

@[simp] theorem eval_addTerm (w : Index → F) (l : LC F) (c : F) (v : Index) :
    (l.addTerm c v).eval w = l.eval w + c * w v := by
  have h := getVarLoc_spec l v
  unfold LC.addTerm
  split at h
  · next i heq =>
    obtain ⟨hi, hv⟩ := h
    rw [heq]; simp only
    rw [eval_modify w l i c hi, hv]; ring
  · next i heq =>
    rw [heq]; simp only
    rw [eval_insertIdx w l i _ h]; ring

@[simp] theorem eval_subTerm (w : Index → F) (l : LC F) (c : F) (v : Index) :
    (l.subTerm c v).eval w = l.eval w - c * w v := by
  simp [LC.subTerm]; ring

@[simp] theorem eval_addVar (w : Index → F) (l : LC F) (v : Index) :
    (l.addVar v).eval w = l.eval w + w v := by simp [LC.addVar]

@[simp] theorem eval_subVar (w : Index → F) (l : LC F) (v : Index) :
    (l.subVar v).eval w = l.eval w - w v := by simp [LC.subVar]

theorem eval_map_scaled (w : Index → F) (l : LC F) (f : F → F) (k : F) (hf : ∀ x, f x = k * x) :
    LC.eval w (l.map fun t => (t.1, f t.2)) = k * l.eval w := by
  induction l with
  | nil => simp
  | cons t l ih => simp only [List.map_cons, eval_cons]; rw [ih, hf]; ring

theorem eval_opImpl (w : Index → F) (f : F → F) (g : F → F → F) (k : F)
    (hf : ∀ x, f x = k * x) (hg : ∀ a b, g a b = a + k * b) (a b : LC F) :
    (LC.opImpl f g a b).eval w = a.eval w + k * b.eval w := by
  fun_induction LC.opImpl f g a b with
  | case1 other => rw [eval_map_scaled w other f k hf]; simp
  | case2 cur h => simp
  | case3 c cs o os heq ih => simp only [eval_cons, ih, hf]; ring
  | case4 c cs o os heq ih => simp only [eval_cons, ih]; ring
  | case5 c cs o os heq ih =>
    have := Index.cmp_eq heq
    simp only [eval_cons, ih, hg, this]; ring

@[simp] theorem eval_add (w : Index → F) (a b : LC F) :
    (a.add b).eval w = a.eval w + b.eval w := by
  unfold LC.add
  split
  · next h => simp [List.isEmpty_iff.mp h]
  · split
    · next h => simp [List.isEmpty_iff.mp h]
    · rw [eval_opImpl w _ _ 1 (by simp) (by simp)]; ring

@[simp] theorem eval_addRefVal (w : Index → F) (a b : LC F) :
    (a.addRefVal b).eval w = a.eval w + b.eval w := by
  unfold LC.addRefVal
  split
  · next h => simp [List.isEmpty_iff.mp h]
  · split
    · next h => simp [List.isEmpty_iff.mp h]
    · rw [eval_opImpl w _ _ 1 (by simp) (by simp)]; ring

@[simp] theorem eval_sub (w : Index → F) (a b : LC F) :
    (a.sub b).eval w = a.eval w - b.eval w := by
  unfold LC.sub
  split
  · next h => simp [List.isEmpty_iff.mp h]
  · split
    · next h => simp [List.isEmpty_iff.mp h]
    · rw [eval_opImpl w _ _ (-1) (by intros; ring) (by intros; ring)]; ring

@[simp] theorem eval_subRefVal (w : Index → F) (a b : LC F) :
    (a.subRefVal b).eval w = a.eval w - b.eval w := by
  unfold LC.subRefVal
  split
  · next h => simp [List.isEmpty_iff.mp h]
  · split
    · next h => simp [List.isEmpty_iff.mp h]
    · rw [eval_opImpl w _ _ (-1) (by intros; ring) (by intros; ring)]; ring

@[simp] theorem eval_addScaled (w : Index → F) (a b : LC F) (k : F) :
    (a.addScaled k b).eval w = a.eval w + k * b.eval w := by
  unfold LC.addScaled
  split
  · next h => simp [List.isEmpty_iff.mp h]
  · split
    · next h => simp [List.isEmpty_iff.mp h]
    · rw [eval_opImpl w _ _ k (by intros; ring) (by intros; ring)]

@[simp] theorem eval_subScaled (w : Index → F) (a b : LC F) (k : F) :
    (a.subScaled k b).eval w = a.eval w - k * b.eval w := by
  simp [LC.subScaled]; ring

@[simp] theorem eval_replace (w : Index → F) (a b : LC F) :
    (a.replace b).eval w = b.eval w := by simp [LC.replace]

/-! ### Order -/

theorem ordered_map (l : LC F) (f : F → F) (h : l.Ordered) :
    LC.Ordered (l.map fun t => (t.1, f t.2)) := by
  unfold LC.Ordered at *
  rw [List.pairwise_map]; exact h

theorem ordered_modify (l : LC F) (i : Nat) (c : F) (h : l.Ordered) :
    LC.Ordered (l.modify i fun t => (t.1, t.2 + c)) := by
  have key : ∀ (l : LC F) (i : Nat), (l.modify i fun t => (t.1, t.2 + c)).map Prod.fst
      = l.map Prod.fst := by
    intro l
    induction l with
    | nil => intro i; cases i <;> simp
    | cons a l ih => intro i; cases i <;> simp [ih]
  unfold LC.Ordered at *
  have h' : (l.map Prod.fst).Pairwise Index.Le := List.pairwise_map.mpr h
  rw [← key l i] at h'
  exact List.pairwise_map.mp h'

/-- Inserting at a position that splits the list correctly keeps the order. -/
theorem ordered_insertIdx (l : LC F) (i : Nat) (t : Index × F) (hi : i ≤ l.length)
    (h : l.Ordered)
    (hlo : ∀ j (hj : j < l.length), j < i → (l[j]).1.Le t.1)
    (hhi : ∀ j (hj : j < l.length), i ≤ j → t.1.Le (l[j]).1) :
    LC.Ordered (l.insertIdx i t) := by
  induction l generalizing i with
  | nil => have : i = 0 := by simpa using hi
           subst this; simp [LC.Ordered]
  | cons a l ih =>
    unfold LC.Ordered at h ⊢
    rw [List.pairwise_cons] at h
    cases i with
    | zero =>
      simp only [List.insertIdx_zero, List.pairwise_cons]
      refine ⟨?_, h⟩
      intro b hb
      obtain ⟨j, hj, rfl⟩ := List.getElem_of_mem hb
      exact hhi j hj (Nat.zero_le _)
    | succ i =>
      simp only [List.insertIdx_succ_cons, List.pairwise_cons]
      refine ⟨?_, ?_⟩
      · intro b hb
        rw [List.mem_insertIdx (by simpa using hi)] at hb
        rcases hb with rfl | hb
        · exact hlo 0 (by simp) (by omega)
        · exact h.1 b hb
      · refine ih i (by simpa using hi) h.2 ?_ ?_
        · intro j hj hlt
          exact hlo (j + 1) (by simp; omega) (by omega)
        · intro j hj hlt
          exact hhi (j + 1) (by simp; omega) (by omega)

theorem scanLoc_split (v : Index) (l : LC F) (h : l.Ordered) :
    (∀ j (hj : j < l.length), j < LC.scanLoc v l → (l[j]).1.Le v) ∧
    (∀ j (hj : j < l.length), LC.scanLoc v l ≤ j → v.Le (l[j]).1) := by
  induction l with
  | nil => simp
  | cons a l ih =>
    unfold LC.Ordered at h
    rw [List.pairwise_cons] at h
    obtain ⟨ih1, ih2⟩ := ih h.2
    simp only [LC.scanLoc]
    split
    · next hne =>
      have hva := Index.cmp_ne_lt_le hne
      refine ⟨by intro j hj hlt; omega, ?_⟩
      intro j hj _
      cases j with
      | zero => exact hva
      | succ j =>
        refine hva.trans (h.1 _ ?_)
        exact List.getElem_mem _
    · next hlt =>
      have hlt' : a.1.cmp v = .lt := by
        by_contra hc; exact hlt hc
      refine ⟨?_, ?_⟩
      · intro j hj hjl
        cases j with
        | zero => exact Index.cmp_lt_le hlt'
        | succ j => exact ih1 j (by simpa using hj) (by omega)
      · intro j hj hjl
        cases j with
        | zero => omega
        | succ j => exact ih2 j (by simpa using hj) (by omega)

theorem ordered_get {l : LC F} (h : l.Ordered) {i j : Nat} (hi : i < l.length) (hj : j < l.length)
    (hij : i ≤ j) : (l[i]).1.Le (l[j]).1 := by
  rcases Nat.lt_or_eq_of_le hij with h' | h'
  · exact List.pairwise_iff_getElem.mp h i j hi hj h'
  · subst h'; exact Index.Le.refl _

theorem binSearch_split (l : LC F) (v : Index) (left right : Nat) (h : right ≤ l.length)
    (hl : left ≤ right) (ho : l.Ordered)
    (hlo : ∀ j (hj : j < l.length), j < left → (l[j]).1.Le v)
    (hhi : ∀ j (hj : j < l.length), right ≤ j → v.Le (l[j]).1) :
    ∀ i, LC.binSearch l v left right h = .inr i →
      (∀ j (hj : j < l.length), j < i → (l[j]).1.Le v) ∧
      (∀ j (hj : j < l.length), i ≤ j → v.Le (l[j]).1) := by
  fun_induction LC.binSearch l v left right h with
  | case1 left right h hlt hm heq ih =>
    refine ih (by omega) ?_ hhi
    intro j hj hjl
    exact (ordered_get ho hj hm (by omega)).trans (Index.cmp_lt_le heq)
  | case2 left right h hlt hm heq ih =>
    refine ih (by omega) hlo ?_
    intro j hj hjl
    exact (Index.cmp_gt_le heq).trans (ordered_get ho hm hj (by omega))
  | case3 left right h hlt hm heq => intro i hi; simp at hi
  | case4 left right h hlt =>
    intro i hi
    simp only [Sum.inr.injEq] at hi
    subst hi
    refine ⟨hlo, ?_⟩
    intro j hj hjl
    exact hhi j hj (by omega)

theorem ordered_addTerm (l : LC F) (c : F) (v : Index) (h : l.Ordered) :
    LC.Ordered (l.addTerm c v) := by
  have hs := getVarLoc_spec l v
  unfold LC.addTerm
  split
  · exact ordered_modify l _ c h
  · next i heq =>
    rw [heq] at hs
    unfold LC.getVarLoc at heq
    split at heq
    · simp only [Sum.inr.injEq] at heq
      subst heq
      obtain ⟨h1, h2⟩ := scanLoc_split v l h
      exact ordered_insertIdx l _ _ hs h h1 h2
    · obtain ⟨h1, h2⟩ := binSearch_split l v 0 l.length (Nat.le_refl _) (Nat.zero_le _) h
        (by intro j hj hlt; omega) (by intro j hj hle; omega) i heq
      exact ordered_insertIdx l _ _ hs h h1 h2

/-- Every variable of a merge comes from one of the operands. -/
theorem mem_opImpl (f : F → F) (g : F → F → F) (a b : LC F) (t : Index × F)
    (ht : t ∈ LC.opImpl f g a b) : (∃ s ∈ a, s.1 = t.1) ∨ (∃ s ∈ b, s.1 = t.1) := by
  fun_induction LC.opImpl f g a b with
  | case1 other =>
    rw [List.mem_map] at ht
    obtain ⟨s, hs, rfl⟩ := ht
    exact .inr ⟨s, hs, rfl⟩
  | case2 cur h => exact .inl ⟨t, ht, rfl⟩
  | case3 c cs o os heq ih =>
    rcases List.mem_cons.mp ht with rfl | ht
    · exact .inr ⟨o, by simp, rfl⟩
    · rcases ih ht with ⟨s, hs, h⟩ | ⟨s, hs, h⟩
      · exact .inl ⟨s, hs, h⟩
      · exact .inr ⟨s, by simp [hs], h⟩
  | case4 c cs o os heq ih =>
    rcases List.mem_cons.mp ht with rfl | ht
    · exact .inl ⟨t, by simp, rfl⟩
    · rcases ih ht with ⟨s, hs, h⟩ | ⟨s, hs, h⟩
      · exact .inl ⟨s, by simp [hs], h⟩
      · exact .inr ⟨s, hs, h⟩
  | case5 c cs o os heq ih =>
    rcases List.mem_cons.mp ht with rfl | ht
    · exact .inl ⟨c, by simp, rfl⟩
    · rcases ih ht with ⟨s, hs, h⟩ | ⟨s, hs, h⟩
      · exact .inl ⟨s, by simp [hs], h⟩
      · exact .inr ⟨s, by simp [hs], h⟩

theorem ordered_opImpl (f : F → F) (g : F → F → F) (a b : LC F) (ha : a.Ordered)
    (hb : b.Ordered) : LC.Ordered (LC.opImpl f g a b) := by
  fun_induction LC.opImpl f g a b with
  | case1 other => exact ordered_map other f hb
  | case2 cur h => exact ha
  | case3 c cs o os heq ih =>
    unfold LC.Ordered at hb ha ⊢
    rw [List.pairwise_cons] at hb ⊢
    refine ⟨?_, ih ha hb.2⟩
    intro t ht
    rw [List.pairwise_cons] at ha
    rcases mem_opImpl f g _ _ t ht with ⟨s, hs, h⟩ | ⟨s, hs, h⟩
    · rw [← h]
      rcases List.mem_cons.mp hs with rfl | hs
      · exact Index.cmp_gt_le heq
      · exact (Index.cmp_gt_le heq).trans (ha.1 s hs)
    · rw [← h]; exact hb.1 s hs
  | case4 c cs o os heq ih =>
    unfold LC.Ordered at hb ha ⊢
    rw [List.pairwise_cons] at ha ⊢
    refine ⟨?_, ih ha.2 hb⟩
    intro t ht
    rw [List.pairwise_cons] at hb
    rcases mem_opImpl f g _ _ t ht with ⟨s, hs, h⟩ | ⟨s, hs, h⟩
    · rw [← h]; exact ha.1 s hs
    · rw [← h]
      rcases List.mem_cons.mp hs with rfl | hs
      · exact Index.cmp_lt_le heq
      · exact (Index.cmp_lt_le heq).trans (hb.1 s hs)
  | case5 c cs o os heq ih =>
    have he := Index.cmp_eq heq
    unfold LC.Ordered at hb ha ⊢
    rw [List.pairwise_cons] at ha hb ⊢
    refine ⟨?_, ih ha.2 hb.2⟩
    intro t ht
    rcases mem_opImpl f g _ _ t ht with ⟨s, hs, h⟩ | ⟨s, hs, h⟩
    · rw [← h]; exact ha.1 s hs
    · rw [← h]; simp only [he]; exact hb.1 s hs

theorem ordered_neg (l : LC F) (h : l.Ordered) : l.neg.Ordered := ordered_map l _ h
theorem ordered_scale (l : LC F) (s : F) (h : l.Ordered) : (l.scale s).Ordered :=
  ordered_map l (fun c => c * s) h

theorem ordered_add (a b : LC F) (ha : a.Ordered) (hb : b.Ordered) : (a.add b).Ordered := by
  unfold LC.add; split
  · exact ha
  · split
    · exact hb
    · exact ordered_opImpl _ _ _ _ ha hb

theorem ordered_addRefVal (a b : LC F) (ha : a.Ordered) (hb : b.Ordered) :
    (a.addRefVal b).Ordered := by
  unfold LC.addRefVal; split
  · exact hb
  · split
    · exact ha
    · exact ordered_opImpl _ _ _ _ ha hb

theorem ordered_sub (a b : LC F) (ha : a.Ordered) (hb : b.Ordered) : (a.sub b).Ordered := by
  unfold LC.sub; split
  · exact ha
  · split
    · exact ordered_neg _ hb
    · exact ordered_opImpl _ _ _ _ ha hb

theorem ordered_subRefVal (a b : LC F) (ha : a.Ordered) (hb : b.Ordered) :
    (a.subRefVal b).Ordered := by
  unfold LC.subRefVal; split
  · exact ordered_neg _ hb
  · split
    · exact ha
    · exact ordered_opImpl _ _ _ _ ha hb

theorem ordered_addScaled (a b : LC F) (k : F) (ha : a.Ordered) (hb : b.Ordered) :
    (a.addScaled k b).Ordered := by
  unfold LC.addScaled; split
  · exact ha
  · split
    · exact ordered_scale _ _ hb
    · exact ordered_opImpl _ _ _ _ ha hb

end LC

theorem readLe_leBytes (n v : Nat) (rest : List UInt8) (h : v < 256 ^ n) :
    readLe n (leBytes n v ++ rest) = some (v, rest) := by
  induction n generalizing v with
  | zero => have : v = 0 := by simpa using h
            subst this; simp [readLe, leBytes]
  | succ n ih =>
    have h2 : v / 256 < 256 ^ n := by
      rw [Nat.div_lt_iff_lt_mul (by norm_num)]
      rw [pow_succ] at h; exact h
    simp only [leBytes, List.cons_append, readLe, ih (v / 256) h2]
    simp only [UInt8.toNat_ofNat', Option.some.injEq, Prod.mk.injEq, and_true]
    omega

theorem length_leBytes (n v : Nat) : (leBytes n v).length = n := by
  induction n generalizing v with
  | zero => simp [leBytes]
  | succ n ih => simp [leBytes, ih]

end Zkp

namespace Zkp.LC

variable {F : Type} [Field F]

/-- If binary search over an ordered list reports "not found", the variable is absent. -/
theorem binSearch_absent (l : LC F) (v : Index) (left right : Nat) (h : right ≤ l.length)
    (ho : l.Ordered)
    (hlo : ∀ j (hj : j < l.length), j < left → (l[j]).1 ≠ v)
    (hhi : ∀ j (hj : j < l.length), right ≤ j → (l[j]).1 ≠ v) :
    ∀ i, LC.binSearch l v left right h = .inr i → ∀ j (hj : j < l.length), (l[j]).1 ≠ v := by
  fun_induction LC.binSearch l v left right h with
  | case1 left right h hlt hm heq ih =>
    refine ih ?_ hhi
    intro j hj hjl hv
    have := ordered_get ho hj hm (by omega)
    rw [hv] at this
    exact Index.cmp_lt_not_le heq this
  | case2 left right h hlt hm heq ih =>
    refine ih hlo ?_
    intro j hj hjl hv
    have := ordered_get ho hm hj (by omega)
    rw [hv] at this
    exact Index.cmp_gt_not_le heq this
  | case3 left right h hlt hm heq => intro i hi; simp at hi
  | case4 left right h hlt =>
    intro i hi j hj
    by_cases hjl : j < left
    · exact hlo j hj hjl
    · exact hhi j hj (by omega)

theorem binSearch_not_found (l : LC F) (v : Index) (ho : l.Ordered) (i : Nat)
    (heq : LC.binSearch l v 0 l.length (Nat.le_refl _) = .inr i) : v ∉ l.map Prod.fst := by
  have := binSearch_absent l v 0 l.length (Nat.le_refl _) ho (by intro j hj h; omega)
    (by intro j hj h; omega) i heq
  intro hv
  rw [List.mem_map] at hv
  obtain ⟨t, ht, rfl⟩ := hv
  obtain ⟨j, hj, rfl⟩ := List.getElem_of_mem ht
  exact this j hj rfl

theorem noRepeat_opImpl (f : F → F) (g : F → F → F) (a b : LC F) (ha : a.Ordered)
    (hb : b.Ordered) (hna : a.NoRepeat) (hnb : b.NoRepeat) :
    LC.NoRepeat (LC.opImpl f g a b) := by
  fun_induction LC.opImpl f g a b with
  | case1 other => unfold LC.NoRepeat at *; rw [List.map_map]; exact hnb
  | case2 cur h => exact hna
  | case3 c cs o os heq ih =>
    unfold LC.Ordered at hb ha
    unfold LC.NoRepeat at hna hnb ⊢
    simp only [List.map_cons, List.nodup_cons] at hnb ⊢
    rw [List.pairwise_cons] at hb
    refine ⟨?_, ih ha hb.2 hna hnb.2⟩
    intro hm
    rw [List.mem_map] at hm
    obtain ⟨t, ht, hto⟩ := hm
    rcases mem_opImpl f g _ _ t ht with ⟨s, hs, h⟩ | ⟨s, hs, h⟩
    · rw [List.pairwise_cons] at ha
      have : c.1.Le s.1 := by
        rcases List.mem_cons.mp hs with rfl | hs
        · exact Index.Le.refl _
        · exact ha.1 s hs
      rw [h, hto] at this
      exact Index.cmp_gt_not_le heq this
    · exact hnb.1 (by rw [← hto, ← h]; exact List.mem_map_of_mem hs)
  | case4 c cs o os heq ih =>
    unfold LC.Ordered at hb ha
    unfold LC.NoRepeat at hna hnb ⊢
    simp only [List.map_cons, List.nodup_cons] at hna ⊢
    rw [List.pairwise_cons] at ha
    refine ⟨?_, ih ha.2 hb hna.2 hnb⟩
    intro hm
    rw [List.mem_map] at hm
    obtain ⟨t, ht, hto⟩ := hm
    rcases mem_opImpl f g _ _ t ht with ⟨s, hs, h⟩ | ⟨s, hs, h⟩
    · exact hna.1 (by rw [← hto, ← h]; exact List.mem_map_of_mem hs)
    · rw [List.pairwise_cons] at hb
      have : o.1.Le s.1 := by
        rcases List.mem_cons.mp hs with rfl | hs
        · exact Index.Le.refl _
        · exact hb.1 s hs
      rw [h, hto] at this
      exact Index.cmp_lt_not_le heq this
  | case5 c cs o os heq ih =>
    have he := Index.cmp_eq heq
    unfold LC.Ordered at hb ha
    unfold LC.NoRepeat at hna hnb ⊢
    simp only [List.map_cons, List.nodup_cons] at hna hnb ⊢
    rw [List.pairwise_cons] at ha hb
    refine ⟨?_, ih ha.2 hb.2 hna.2 hnb.2⟩
    intro hm
    rw [List.mem_map] at hm
    obtain ⟨t, ht, hto⟩ := hm
    rcases mem_opImpl f g _ _ t ht with ⟨s, hs, h⟩ | ⟨s, hs, h⟩
    · exact hna.1 (by rw [← hto, ← h]; exact List.mem_map_of_mem hs)
    · exact hnb.1 (by rw [← he, ← hto, ← h]; exact List.mem_map_of_mem hs)

end Zkp.LC
