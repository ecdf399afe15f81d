/- Proofs about the complete binary Merkle tree. -/
import Verif.Model.Cbmt
import Mathlib.Data.List.GetD
import Mathlib.Tactic.Ring
import Mathlib.Logic.Function.Basic

namespace Zkp.Cbmt

variable {T : Type}

theorem xor_one_even (m : Nat) : (2 * m) ^^^ 1 = 2 * m + 1 := by
  apply Nat.eq_of_testBit_eq
  intro i
  match i with
  | 0 => simp [Nat.testBit_zero]
  | i + 1 =>
    rw [Nat.testBit_xor, Nat.testBit_succ, Nat.testBit_succ, Nat.testBit_succ]
    simp; congr 1; omega

theorem xor_one_odd (m : Nat) : (2 * m + 1) ^^^ 1 = 2 * m := by
  rw [← xor_one_even, Nat.xor_assoc, Nat.xor_self, Nat.xor_zero]

theorem sibling_odd (k : Nat) : sibling (2 * k + 1) = 2 * k + 2 := by
  have : (2 * k + 1 + 1) ^^^ 1 = 2 * k + 1 + 1 + 1 := by
    rw [show 2 * k + 1 + 1 = 2 * (k + 1) by ring]
    rw [xor_one_even]
  simp [sibling, this]

theorem sibling_even (k : Nat) : sibling (2 * k + 2) = 2 * k + 1 := by
  have : (2 * k + 2 + 1) ^^^ 1 = 2 * k + 2 := by
    rw [show 2 * k + 2 + 1 = 2 * (k + 1) + 1 by ring]
    rw [xor_one_odd]; omega
  simp [sibling, this]

theorem parent_odd (k : Nat) : parent (2 * k + 1) = k := by
  simp [parent, Nat.shiftRight_eq_div_pow]

theorem parent_even (k : Nat) : parent (2 * k + 2) = k := by
  simp [parent, Nat.shiftRight_eq_div_pow]; omega

theorem isLeft_odd (k : Nat) : isLeft (2 * k + 1) = true := by
  simp [isLeft, Nat.and_one_is_mod]

theorem isLeft_even (k : Nat) : isLeft (2 * k + 2) = false := by
  simp [isLeft, Nat.and_one_is_mod]

/-- Every node index but the root is a left or a right child. -/
theorem child_cases {k : Nat} (h : k ≠ 0) : (∃ j, k = 2 * j + 1) ∨ ∃ j, k = 2 * j + 2 := by
  rcases Nat.even_or_odd' k with ⟨c, rfl | rfl⟩
  · exact .inr ⟨c - 1, by omega⟩
  · exact .inl ⟨c, rfl⟩

/-! ### The tree -/

/-- The tree equations for `n` leaves. -/
structure IsTree (merge : T → T → T) (leaves : List T) (t : Nat → T) : Prop where
  node : ∀ k, k < leaves.length - 1 → t k = merge (t (2 * k + 1)) (t (2 * k + 2))
  leaf : ∀ i (h : i < leaves.length), t (leaves.length - 1 + i) = leaves[i]

theorem fold_length (merge : T → T → T) (d : T) (is : List Nat) (ns : List T) :
    (is.foldl (treeStep merge d) ns).length = ns.length := by
  induction is generalizing ns with
  | nil => rfl
  | cons i is ih => rw [List.foldl_cons, ih]; simp [treeStep]

theorem fold_spec (merge : T → T → T) (d : T) (m : Nat) :
    ∀ (ns : List T), m ≤ ns.length →
      let r := (List.range m).reverse.foldl (treeStep merge d) ns
      (∀ k, m ≤ k → r.getD k d = ns.getD k d) ∧
      ∀ k, k < m → r.getD k d = merge (r.getD (2 * k + 1) d) (r.getD (2 * k + 2) d) := by
  induction m with
  | zero => intro ns _; simp
  | succ m ih =>
    intro ns hn
    simp only
    rw [List.range_succ, List.reverse_append, List.reverse_singleton, List.singleton_append,
      List.foldl_cons]
    have hset : ∀ k, (treeStep merge d ns m).getD k d =
        if k = m then merge (ns.getD (2 * m + 1) d) (ns.getD (2 * m + 2) d) else ns.getD k d := by
      intro k
      unfold treeStep
      rw [Nat.shiftLeft_eq, pow_one, Nat.mul_comm m 2]
      split
      · rename_i h
        subst h
        rw [List.getD_eq_getElem _ _ (by simp; omega), List.getElem_set_self]
      · rename_i h
        simp only [List.getD_eq_getElem?_getD]
        rw [List.getElem?_set_ne (by omega)]
    obtain ⟨h1, h2⟩ := ih (treeStep merge d ns m) (by simp [treeStep]; omega)
    refine ⟨fun k hk => ?_, fun k hk => ?_⟩
    · rw [h1 k (by omega), hset, if_neg (by omega)]
    · by_cases hkm : k = m
      · subst hkm
        rw [h1 k (le_refl _), h1 (2 * k + 1) (by omega), h1 (2 * k + 2) (by omega), hset, hset, hset,
          if_pos rfl, if_neg (by omega), if_neg (by omega)]
      · exact h2 k (by omega)

theorem buildTree_length (merge : T → T → T) (d : T) {leaves : List T} (h : leaves ≠ []) :
    (buildTree merge d leaves).length = 2 * leaves.length - 1 := by
  have := List.length_pos_iff.mpr h
  unfold buildTree
  rw [if_pos this, fold_length]
  simp; omega

theorem buildTree_isTree (merge : T → T → T) (d : T) {leaves : List T} (h : leaves ≠ []) :
    IsTree merge leaves (fun k => (buildTree merge d leaves).getD k d) := by
  have hp := List.length_pos_iff.mpr h
  obtain ⟨h1, h2⟩ := fold_spec merge d (leaves.length - 1)
    (List.replicate (leaves.length - 1) d ++ leaves) (by simp)
  unfold buildTree
  rw [if_pos hp]
  refine ⟨h2, fun i hi => ?_⟩
  rw [h1 _ (by omega), List.getD_eq_getElem _ _ (by simp; omega), List.getElem_append_right (by simp)]
  simp

/-! ### The direct root -/

/-- Nodes `2j, 2j-1, …, j`: the queue when `j` merges remain. -/
theorem queue_loop (merge : T → T → T) (d : T) {leaves : List T} {t : Nat → T}
    (ht : IsTree merge leaves t) (j : Nat) (hj : j ≤ leaves.length - 1) :
    queueLoop merge d ((List.range (j + 1)).map fun i => t (2 * j - i)) = t 0 := by
  induction j with
  | zero => simp [queueLoop]
  | succ j ih =>
    have hq : (List.range (j + 1 + 1)).map (fun i => t (2 * (j + 1) - i)) =
        t (2 * j + 2) :: t (2 * j + 1) :: (List.range j).map fun i => t (2 * j - i) := by
      apply List.ext_getElem (by simp)
      intro i h1 h2
      match i with
      | 0 => simp; ring_nf
      | 1 => simp; congr 1
      | i + 2 => simp; congr 1; omega
    rw [hq, queueLoop, ← ht.node j (by omega)]
    have : (List.range j).map (fun i => t (2 * j - i)) ++ [t j] =
        (List.range (j + 1)).map fun i => t (2 * j - i) := by
      rw [List.range_succ, List.map_append]
      simp; congr 1; omega
    rw [this]
    exact ih (by omega)

/-- Merging the leaves pairwise from the end gives nodes `n-2, n-3, …`. -/
theorem rchunks_eq (merge : T → T → T) (u : Nat → T) (v : Nat → T) (m : Nat) :
    ∀ (s : Nat), (∀ k, k < m / 2 → v (s + k) = merge (u (2 * (s + k) + 1)) (u (2 * (s + k)))) →
      rchunks merge ((List.range m).map fun i => u (2 * s + i)) =
        (List.range (m / 2)).map fun k => v (s + k) := by
  induction m using Nat.strong_induction_on with
  | _ m ih =>
    intro s h
    match m, ih, h with
    | 0, _, _ => simp [rchunks]
    | 1, _, _ => simp [rchunks]
    | m + 2, ih, h =>
      have e1 : (List.range (m + 2)).map (fun i => u (2 * s + i)) =
          u (2 * s) :: u (2 * s + 1) :: (List.range m).map fun i => u (2 * (s + 1) + i) := by
        apply List.ext_getElem (by simp)
        intro i h1 h2
        match i with
        | 0 => simp
        | 1 => simp
        | i + 2 => simp; congr 1; omega
      have e2 : (List.range ((m + 2) / 2)).map (fun k => v (s + k)) =
          v s :: (List.range (m / 2)).map fun k => v (s + 1 + k) := by
        rw [show (m + 2) / 2 = m / 2 + 1 by omega]
        apply List.ext_getElem (by simp)
        intro i h1 h2
        match i with
        | 0 => simp
        | i + 1 => simp; congr 1; omega
      rw [e1, e2, rchunks, ih m (by omega) (s + 1) fun k hk => ?_]
      · have := h 0 (by omega)
        simp only [add_zero] at this
        rw [this]
      · have := h (k + 1) (by omega)
        rw [show s + 1 + k = s + (k + 1) by omega]
        exact this

theorem buildRoot_eq (merge : T → T → T) (d : T) {leaves : List T} {t : Nat → T} (h : leaves ≠ [])
    (ht : IsTree merge leaves t) : buildRoot merge d leaves = t 0 := by
  have hp := List.length_pos_iff.mpr h
  unfold buildRoot
  rw [if_neg (by simpa using h)]
  generalize hn : leaves.length = n at *
  have hrev : leaves.reverse = (List.range n).map fun i => t (2 * n - 2 - i) := by
    apply List.ext_getElem (by simp [hn])
    intro i h1 h2
    simp only [List.getElem_reverse, List.getElem_map, List.getElem_range]
    simp at h1 h2
    rw [← ht.leaf]
    congr 1; omega
  have hch : rchunks merge leaves.reverse = (List.range (n / 2)).map fun k => t (n - 2 - k) := by
    have := rchunks_eq merge (fun i => t (2 * n - 2 - i)) (fun k => t (n - 2 - k)) n 0 (by
      intro k hk
      simp only [zero_add]
      rw [ht.node (n - 2 - k) (by omega)]
      congr 2 <;> omega)
    simpa [hrev] using this
  rw [hch]
  have hq : remainder leaves ++ (List.range (n / 2)).map (fun k => t (n - 2 - k)) =
      (List.range ((n - 1) / 2 + 1)).map fun i => t (2 * ((n - 1) / 2) - i) := by
    unfold remainder
    rw [hn]
    rcases Nat.mod_two_eq_zero_or_one n with hm | hm
    · rw [hm, List.take_zero, List.nil_append, show (n - 1) / 2 + 1 = n / 2 by omega]
      apply List.map_congr_left
      intro i _
      congr 1; omega
    · rw [hm]
      obtain ⟨x, l, rfl⟩ := List.exists_cons_of_ne_nil h
      have hx := ht.leaf 0 (by simp)
      simp only [List.getElem_cons_zero, add_zero] at hx
      rw [show (n - 1) / 2 = n / 2 by omega]
      apply List.ext_getElem (by simp)
      intro i h1 h2
      match i with
      | 0 =>
        simp
        rw [← hx, hn]; congr 1; omega
      | i + 1 => simp; congr 1; omega
  rw [hq]
  exact queue_loop merge d ht _ (by omega)

/-! ### Membership proofs -/

theorem lemmas_spec (merge : T → T → T) {leaves : List T} {t : Nat → T} {ns : List T}
    (ht : IsTree merge leaves t) (hns : ∀ k, k < 2 * leaves.length - 1 → ns[k]? = some (t k))
    (k : Nat) (hk : k ≠ 0) (hk2 : k < 2 * leaves.length - 1) :
    ∃ ls, lemmasFrom ns k = some ls ∧ (ls.foldl (rootStep merge) (t k, k)).1 = t 0 ∧
      (Function.Injective2 merge → ∀ x ls', ls'.length = ls.length →
        (ls'.foldl (rootStep merge) (x, k)).1 = t 0 → x = t k ∧ ls' = ls) := by
  induction k using Nat.strong_induction_on with
  | _ k ih =>
    have hstep : ∃ j, parent k = j ∧ j < k ∧ j < leaves.length - 1 ∧ ∃ s, ns[sibling k]? = some s ∧
        rootStep merge (t k, k) s = (t j, j) ∧ (Function.Injective2 merge → ∀ x y,
          (rootStep merge (x, k) y).1 = t j → x = t k ∧ y = s) := by
      rcases child_cases hk with ⟨j, rfl⟩ | ⟨j, rfl⟩
      · refine ⟨j, parent_odd j, by omega, by omega, t (2 * j + 2), ?_, ?_, ?_⟩
        · rw [sibling_odd, hns _ (by omega)]
        · simp [rootStep, isLeft_odd, parent_odd, ht.node j (by omega)]
        · intro hinj x y hxy
          simp [rootStep, isLeft_odd, ht.node j (by omega)] at hxy
          exact ⟨(hinj hxy).1, (hinj hxy).2⟩
      · refine ⟨j, parent_even j, by omega, by omega, t (2 * j + 1), ?_, ?_, ?_⟩
        · rw [sibling_even, hns _ (by omega)]
        · simp [rootStep, isLeft_even, parent_even, ht.node j (by omega)]
        · intro hinj x y hxy
          simp [rootStep, isLeft_even, ht.node j (by omega)] at hxy
          exact ⟨(hinj hxy).2, (hinj hxy).1⟩
    obtain ⟨j, hj, hjk, hjn, s, hs, hr, hinj⟩ := hstep
    by_cases hj0 : j = 0
    · subst hj0
      refine ⟨[s], ?_, by simp [hr], ?_⟩
      · rw [lemmasFrom, hs]; simp [hj]
      · intro hi x ls' hl hx
        match ls', hl with
        | [y], _ =>
          obtain ⟨h1, h2⟩ := hinj hi x y (by simpa using hx)
          exact ⟨h1, by rw [h2]⟩
    · obtain ⟨ls, h1, h2, h3⟩ := ih j hjk hj0 (by omega)
      refine ⟨s :: ls, ?_, ?_, ?_⟩
      · rw [lemmasFrom, hs]; simp [hj, hj0, h1]
      · rw [List.foldl_cons, hr, h2]
      · intro hi x ls' hl hx
        match ls', hl with
        | y :: ls', hl =>
          rw [List.foldl_cons, show rootStep merge (x, k) y = ((rootStep merge (x, k) y).1, j) by
            simp [rootStep, hj]] at hx
          obtain ⟨h4, h5⟩ := h3 hi _ ls' (by simpa using hl) hx
          obtain ⟨h6, h7⟩ := hinj hi x y h4
          exact ⟨h6, by rw [h5, h7]⟩

theorem nodes_get (merge : T → T → T) (d : T) {leaves : List T} (h : leaves ≠ []) (k : Nat)
    (hk : k < 2 * leaves.length - 1) :
    (buildTree merge d leaves)[k]? = some ((buildTree merge d leaves).getD k d) := by
  have hl := buildTree_length merge d h
  rw [List.getElem?_eq_getElem (by omega), List.getD_eq_getElem _ _ (by omega)]

/-- Without overflow `build_proof` on a built tree is this. -/
theorem buildProof_eq (merge : T → T → T) (d : T) {leaves : List T} (h : leaves ≠ [])
    (hlen : leaves.length < 2 ^ 31) (c : Bool) (i : Nat) (hi : leaves.length + i < 2 ^ 32) :
    buildProof c (buildTree merge d leaves) i =
      if leaves.length ≤ i then some none
      else if leaves.length - 1 + i = 0 then some (some ⟨0, []⟩)
      else (lemmasFrom (buildTree merge d leaves) (leaves.length - 1 + i)).map fun ls =>
        some ⟨leaves.length - 1 + i, ls⟩ := by
  have hp := List.length_pos_iff.mpr h
  have hl := buildTree_length merge d h
  have hne : (buildTree merge d leaves).isEmpty = false := by
    cases hb : buildTree merge d leaves with
    | nil => rw [hb] at hl; simp at hl; omega
    | cons => rfl
  unfold buildProof
  have e1 : ((buildTree merge d leaves).length >>> 1 + 1) % 2 ^ 32 = leaves.length := by
    rw [hl, Nat.shiftRight_eq_div_pow, pow_one]; omega
  have e2 : (leaves.length <<< 1) % 2 ^ 32 = 2 * leaves.length := by
    rw [Nat.shiftLeft_eq, pow_one]; omega
  rw [hne, e1]
  simp only [e2, addU32, subU32, if_pos hi, Bool.false_eq_true, if_false, bind, Option.bind,
    if_pos (show 1 ≤ leaves.length + i by omega), if_pos (show 1 ≤ 2 * leaves.length by omega)]
  rw [show leaves.length + i - 1 = leaves.length - 1 + i by omega]
  by_cases hle : leaves.length ≤ i
  · rw [if_pos (by omega), if_pos hle]; rfl
  · rw [if_neg (by omega), if_neg hle]
    by_cases h0 : leaves.length - 1 + i = 0
    · rw [if_pos h0, if_pos h0, h0]; rfl
    · rw [if_neg h0, if_neg h0]
      cases lemmasFrom (buildTree merge d leaves) (leaves.length - 1 + i) <;> rfl

theorem root_inj {merge : T → T → T} (hinj : Function.Injective2 merge) (ls ls' : List T)
    (hl : ls.length = ls'.length) : ∀ (k : Nat) (x x' : T),
      (ls.foldl (rootStep merge) (x, k)).1 = (ls'.foldl (rootStep merge) (x', k)).1 →
      x = x' ∧ ls = ls' := by
  induction ls generalizing ls' with
  | nil =>
    have : ls' = [] := by simpa using hl.symm
    subst this
    intro k x x' h
    exact ⟨h, rfl⟩
  | cons y ls ih =>
    match ls', hl with
    | y' :: ls', hl =>
      intro k x x' h
      obtain ⟨h1, h2⟩ := ih ls' (by simpa using hl) (parent k) _ _ (by
        simpa only [List.foldl_cons, rootStep] using h)
      subst h2
      cases hk : isLeft k
      · simp [hk] at h1
        obtain ⟨a, b⟩ := hinj h1
        exact ⟨b, by rw [a]⟩
      · simp [hk] at h1
        obtain ⟨a, b⟩ := hinj h1
        exact ⟨a, by rw [b]⟩

end Zkp.Cbmt
