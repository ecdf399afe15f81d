/- C47, C48: Spartan's instance hash and sparse matrix encoding. -/
import Verif.Spec.SpartanSat
import Verif.Spec.Multilinear
import Verif.Spec.Cs
import Verif.Proof.Multilinear
import Verif.Proof.F17

namespace Zkp.Spartan

open Zkp.Ml (Rows col entry)

set_option linter.unusedSectionVars false
set_option linter.unusedSimpArgs false

variable {F : Type} [Field F]

/-! ### C47 -/

/-- C47 fails: these two instances absorb the same byte stream, hence have the same hash for every hash
function, but one is satisfiable and the other is not. -/
theorem C47_violated : ∃ s s' : Inst F17,
    (∀ G : Type, (hashMsgs s : List (Msg F17 G)) = hashMsgs s') ∧
    (∀ (G : Type) (ch : Oracle F17 G), r1csToHash ch s = r1csToHash ch s') ∧
    (∃ z, s.Sat z) ∧ ¬ ∃ z, s'.Sat z := by
  have h : ∀ G : Type, (hashMsgs (⟨1, 0, 2, [[(1, .input 0)], []], [[], [(1, .input 0)]], [[], []]⟩ : Inst F17) :
      List (Msg F17 G)) = hashMsgs ⟨1, 0, 2, [[(1, .input 0)], []], [[(1, .input 0)], []], [[], []]⟩ := by
    intro G; rfl
  refine ⟨_, _, h, ?_, ⟨fun _ => 1, rfl, ?_⟩, ?_⟩
  · intro G ch; unfold r1csToHash; rw [h]
  · intro i hi
    interval_cases i <;> simp [rowVal]
  · rintro ⟨z, h1, h2⟩
    have := h2 0 (by decide)
    simp [rowVal, h1] at this

theorem matrixMsgs_length {G : Type} (name : String) (m : Rows F) :
    (matrixMsgs name m : List (Msg F G)).length = 2 * (m.map List.length).sum := by
  unfold matrixMsgs
  induction m with
  | nil => rfl
  | cons row m ih =>
    rw [List.flatMap_cons, List.length_append, ih, List.map_cons, List.sum_cons, Nat.mul_add]
    congr 1
    induction row with
    | nil => rfl
    | cons t row ih => rw [List.flatMap_cons, List.length_append, ih]; simp; ring

theorem rowMsgs_inj {G : Type} (name : String)
    (hne : name ++ "_matrix_index_aux" ≠ name ++ "_matrix_index_input")
    (r r' : List (F × Index)) (hl : r.length = r'.length) (x y : List (Msg F G))
    (h : (r.flatMap fun t => [Msg.fr (name ++ "_matrix") t.1,
        match t.2 with
        | .aux i => .u64 (name ++ "_matrix_index_aux") i
        | .input i => .u64 (name ++ "_matrix_index_input") i]) ++ x =
      (r'.flatMap fun t => [Msg.fr (name ++ "_matrix") t.1,
        match t.2 with
        | .aux i => .u64 (name ++ "_matrix_index_aux") i
        | .input i => .u64 (name ++ "_matrix_index_input") i]) ++ y) : r = r' ∧ x = y := by
  induction r generalizing r' with
  | nil =>
    cases r' with
    | nil => exact ⟨rfl, by simpa using h⟩
    | cons => simp at hl
  | cons t r ih =>
    cases r' with
    | nil => simp at hl
    | cons t' r' =>
      rw [List.flatMap_cons, List.flatMap_cons, List.append_assoc, List.append_assoc] at h
      simp only [List.cons_append, List.nil_append, List.cons.injEq] at h
      obtain ⟨h1, h2, h3⟩ := h
      have ⟨e1, e2⟩ := ih r' (by simpa using hl) h3
      refine ⟨?_, e2⟩
      rw [e1]
      congr 1
      obtain ⟨c, v⟩ := t
      obtain ⟨c', v'⟩ := t'
      have hc : c = c' := by injection h1
      subst hc
      cases v <;> cases v' <;> simp only [Msg.u64.injEq] at h2
      · rw [h2.2]
      · exact absurd h2.1.symm (by simpa using hne)
      · exact absurd h2.1 (by simpa using hne)
      · rw [h2.2]

theorem matrixMsgs_inj {G : Type} (name : String)
    (hne : name ++ "_matrix_index_aux" ≠ name ++ "_matrix_index_input")
    (m m' : Rows F) (hl : m.map List.length = m'.map List.length)
    (h : (matrixMsgs name m : List (Msg F G)) = matrixMsgs name m') : m = m' := by
  unfold matrixMsgs at h
  induction m generalizing m' with
  | nil =>
    cases m' with
    | nil => rfl
    | cons => simp at hl
  | cons r m ih =>
    cases m' with
    | nil => simp at hl
    | cons r' m' =>
      simp only [List.map_cons, List.cons.injEq] at hl
      rw [List.flatMap_cons, List.flatMap_cons] at h
      have ⟨e1, e2⟩ := rowMsgs_inj name hne r r' hl.1 _ _ h
      rw [e1, ih m' hl.2 e2]

/-- Instances whose rows have the same lengths are told apart by the absorbed stream.

Partial: the full claim, without the hypotheses on the row lengths, is false (`C47_violated`): the
stream does not say where a row ends. -/
theorem C47_partial {G : Type} (s s' : Inst F) (ha : s.a.map List.length = s'.a.map List.length)
    (hb : s.b.map List.length = s'.b.map List.length) (hc : s.c.map List.length = s'.c.map List.length)
    (h : (hashMsgs s : List (Msg F G)) = hashMsgs s') : s = s' := by
  unfold hashMsgs at h
  simp only [List.cons_append, List.nil_append, List.cons.injEq, Msg.u64.injEq, true_and] at h
  obtain ⟨h1, h2, h3, h4⟩ := h
  obtain ⟨h5, h6⟩ := List.append_inj h4 (by simp only [List.length_append, matrixMsgs_length, ha, hb])
  obtain ⟨h7, h8⟩ := List.append_inj h5 (by simp only [matrixMsgs_length, ha])
  have e1 := matrixMsgs_inj "a" (by decide) _ _ ha h7
  have e2 := matrixMsgs_inj "b" (by decide) _ _ hb h8
  have e3 := matrixMsgs_inj "c" (by decide) _ _ hc h6
  cases s; cases s'; simp_all

/-- Two instances with equal row lengths and different coefficients. -/
example : (hashMsgs (⟨2, 1, 1, [[(3, .aux 0)]], [[(1, .input 1)]], [[]]⟩ : Inst F17) : List (Msg F17 Unit)) ≠
    hashMsgs ⟨2, 1, 1, [[(4, .aux 0)]], [[(1, .input 1)]], [[]]⟩ := by
  intro h
  have := C47_partial _ _ (by rfl) (by rfl) (by rfl) h
  simp at this
  exact absurd this (by decide)

/-- The messages of one entry. -/
private def entryMsgs {G : Type} (name : String) (l : List (F × Index)) : List (Msg F G) :=
  l.flatMap fun t => [Msg.fr (name ++ "_matrix") t.1,
    match t.2 with
    | .aux i => .u64 (name ++ "_matrix_index_aux") i
    | .input i => .u64 (name ++ "_matrix_index_input") i]

private theorem matrixMsgs_flatten {G : Type} (name : String) (m : Rows F) :
    (matrixMsgs name m : List (Msg F G)) = entryMsgs name m.flatten := by
  unfold matrixMsgs entryMsgs
  induction m with
  | nil => rfl
  | cons r m ih => rw [List.flatMap_cons, List.flatten_cons, List.flatMap_append, ih]; rfl

private theorem entryMsgs_inj {G : Type} (name : String)
    (hne : name ++ "_matrix_index_aux" ≠ name ++ "_matrix_index_input") (l l' : List (F × Index))
    (h : (entryMsgs name l : List (Msg F G)) = entryMsgs name l') : l = l' := by
  have hlen : ∀ l : List (F × Index), (entryMsgs name l : List (Msg F G)).length = 2 * l.length := by
    intro l
    unfold entryMsgs
    induction l with
    | nil => rfl
    | cons t l ih => rw [List.flatMap_cons, List.length_append, ih]; simp; ring
  have e := congrArg List.length h
  rw [hlen, hlen] at e
  exact (rowMsgs_inj name hne l l' (by omega) [] [] (by simpa [entryMsgs] using h)).1

/-- The messages of the matrix called `name`. -/
private def ofMatrix {G : Type} (name : String) : Msg F G → Bool
  | .fr s _ => s == name ++ "_matrix"
  | .u64 s _ => s == name ++ "_matrix_index_aux" || s == name ++ "_matrix_index_input"
  | _ => false

private theorem filter_same {G : Type} (name : String) (l : List (F × Index)) :
    (entryMsgs name l : List (Msg F G)).filter (ofMatrix name) = entryMsgs name l := by
  rw [List.filter_eq_self]
  intro x hx
  unfold entryMsgs at hx
  rw [List.mem_flatMap] at hx
  obtain ⟨⟨c, v⟩, -, hx⟩ := hx
  simp only [List.mem_cons, List.not_mem_nil, or_false] at hx
  rcases hx with rfl | rfl
  · simp [ofMatrix]
  · cases v <;> simp [ofMatrix]

private theorem filter_other {G : Type} (n m : String) (h0 : m ++ "_matrix" ≠ n ++ "_matrix")
    (h1 : m ++ "_matrix_index_aux" ≠ n ++ "_matrix_index_aux") (h2 : m ++ "_matrix_index_aux" ≠ n ++ "_matrix_index_input")
    (h3 : m ++ "_matrix_index_input" ≠ n ++ "_matrix_index_aux")
    (h4 : m ++ "_matrix_index_input" ≠ n ++ "_matrix_index_input") (l : List (F × Index)) :
    (entryMsgs m l : List (Msg F G)).filter (ofMatrix n) = [] := by
  rw [List.filter_eq_nil_iff]
  intro x hx
  unfold entryMsgs at hx
  rw [List.mem_flatMap] at hx
  obtain ⟨⟨c, v⟩, -, hx⟩ := hx
  simp only [List.mem_cons, List.not_mem_nil, or_false] at hx
  rcases hx with rfl | rfl
  · simp only [ofMatrix, beq_iff_eq]; exact h0
  · cases v <;> simp only [ofMatrix, Bool.or_eq_true, beq_iff_eq, not_or]
    · exact ⟨h3, h4⟩
    · exact ⟨h1, h2⟩

/-- Exactly what the stream tells apart: the three numbers, and the entries of each matrix read row after row. Two
instances are confused exactly if they differ only in where the rows end. -/
theorem C47_exact {G : Type} (s s' : Inst F) : (hashMsgs s : List (Msg F G)) = hashMsgs s' ↔
    s.numInputs = s'.numInputs ∧ s.numAux = s'.numAux ∧ s.numConstraints = s'.numConstraints ∧
      s.a.flatten = s'.a.flatten ∧ s.b.flatten = s'.b.flatten ∧ s.c.flatten = s'.c.flatten := by
  constructor
  · intro h
    unfold hashMsgs at h
    simp only [List.cons_append, List.nil_append, List.cons.injEq, Msg.u64.injEq, true_and, matrixMsgs_flatten] at h
    obtain ⟨h1, h2, h3, h4⟩ := h
    have ha := congrArg (List.filter (ofMatrix "a")) h4
    have hb := congrArg (List.filter (ofMatrix "b")) h4
    have hc := congrArg (List.filter (ofMatrix "c")) h4
    rw [List.filter_append, List.filter_append, List.filter_append, List.filter_append, filter_same, filter_same,
      filter_other "a" "b" (by decide) (by decide) (by decide) (by decide) (by decide),
      filter_other "a" "b" (by decide) (by decide) (by decide) (by decide) (by decide),
      filter_other "a" "c" (by decide) (by decide) (by decide) (by decide) (by decide),
      filter_other "a" "c" (by decide) (by decide) (by decide) (by decide) (by decide),
      List.append_nil, List.append_nil, List.append_nil, List.append_nil] at ha
    rw [List.filter_append, List.filter_append, List.filter_append, List.filter_append, filter_same, filter_same,
      filter_other "b" "a" (by decide) (by decide) (by decide) (by decide) (by decide),
      filter_other "b" "a" (by decide) (by decide) (by decide) (by decide) (by decide),
      filter_other "b" "c" (by decide) (by decide) (by decide) (by decide) (by decide),
      filter_other "b" "c" (by decide) (by decide) (by decide) (by decide) (by decide),
      List.append_nil, List.append_nil, List.nil_append, List.nil_append] at hb
    rw [List.filter_append, List.filter_append, List.filter_append, List.filter_append, filter_same, filter_same,
      filter_other "c" "a" (by decide) (by decide) (by decide) (by decide) (by decide),
      filter_other "c" "a" (by decide) (by decide) (by decide) (by decide) (by decide),
      filter_other "c" "b" (by decide) (by decide) (by decide) (by decide) (by decide),
      filter_other "c" "b" (by decide) (by decide) (by decide) (by decide) (by decide),
      List.nil_append, List.nil_append, List.nil_append] at hc
    exact ⟨h1, h2, h3, entryMsgs_inj (G := G) "a" (by decide) _ _ ha, entryMsgs_inj (G := G) "b" (by decide) _ _ hb,
      entryMsgs_inj (G := G) "c" (by decide) _ _ hc⟩
  · rintro ⟨h1, h2, h3, h4, h5, h6⟩
    unfold hashMsgs
    rw [matrixMsgs_flatten, matrixMsgs_flatten, matrixMsgs_flatten, matrixMsgs_flatten, matrixMsgs_flatten,
      matrixMsgs_flatten, h1, h2, h3, h4, h5, h6]

/-- Entries moved to another row are not noticed, entries moved to another matrix are. -/
example : (hashMsgs (⟨2, 1, 2, [[(3, .aux 0)], [(1, .input 0)]], [[], []], [[], []]⟩ : Inst F17) : List (Msg F17 Unit)) =
      hashMsgs ⟨2, 1, 2, [[(3, .aux 0), (1, .input 0)], []], [[], []], [[], []]⟩ ∧
    (hashMsgs (⟨2, 1, 2, [[(3, .aux 0)], [(1, .input 0)]], [[], []], [[], []]⟩ : Inst F17) : List (Msg F17 Unit)) ≠
      hashMsgs ⟨2, 1, 2, [[(3, .aux 0)], []], [[(1, .input 0)], []], [[], []]⟩ :=
  ⟨(C47_exact _ _).2 ⟨rfl, rfl, rfl, rfl, rfl, rfl⟩, fun h => by
    have := ((C47_exact _ _).1 h).2.2.2.1
    simp at this⟩

/-! ### C48 -/

/-- What a map holds at key `c`. -/
def look (m : List (Nat × F)) (c : Nat) : F := ((m.filter fun e => e.1 = c).map fun e => e.2).sum

theorem look_cons (k : Nat) (v : F) (m : List (Nat × F)) (c : Nat) :
    look ((k, v) :: m) c = (if k = c then v else 0) + look m c := by
  unfold look
  by_cases h : k = c <;> simp [h]

theorem look_mapAdd (k : Nat) (v : F) (m : List (Nat × F)) (c : Nat) :
    look (mapAdd k v m) c = look m c + (if k = c then v else 0) := by
  induction m with
  | nil => simp only [mapAdd]; rw [look_cons]; simp [look]
  | cons e m ih =>
    obtain ⟨k', v'⟩ := e
    unfold mapAdd
    split
    · rw [look_cons, look_cons]; ring
    · split
      · next h => subst h; rw [look_cons, look_cons]; split <;> ring
      · rw [look_cons, look_cons, ih]; ring

theorem mapAdd_keys (k : Nat) (v : F) (m : List (Nat × F)) :
    ∀ e ∈ mapAdd k v m, e.1 = k ∨ ∃ e' ∈ m, e'.1 = e.1 := by
  induction m with
  | nil => intro e he; simp only [mapAdd, List.mem_singleton] at he; left; rw [he]
  | cons e0 m ih =>
    obtain ⟨k', v'⟩ := e0
    intro e he
    unfold mapAdd at he
    split at he
    · rcases List.mem_cons.1 he with rfl | he
      · left; rfl
      · right; exact ⟨e, he, rfl⟩
    · split at he
      · next h =>
        rcases List.mem_cons.1 he with rfl | he
        · left; exact h.symm
        · right; exact ⟨e, by simp [he], rfl⟩
      · rcases List.mem_cons.1 he with rfl | he
        · right; exact ⟨(k', v'), by simp, rfl⟩
        · rcases ih e he with h | ⟨e', he', h⟩
          · left; exact h
          · right; exact ⟨e', by simp [he'], h⟩

theorem mapAdd_sorted (k : Nat) (v : F) (m : List (Nat × F)) (h : m.Pairwise fun a b => a.1 < b.1) :
    (mapAdd k v m).Pairwise fun a b => a.1 < b.1 := by
  induction m with
  | nil => simp [mapAdd]
  | cons e m ih =>
    obtain ⟨k', v'⟩ := e
    rw [List.pairwise_cons] at h
    unfold mapAdd
    split
    · next hk =>
      rw [List.pairwise_cons, List.pairwise_cons]
      refine ⟨?_, h⟩
      intro e he
      rcases List.mem_cons.1 he with rfl | he
      · exact hk
      · exact lt_trans hk (h.1 e he)
    · next hk =>
      split
      · rw [List.pairwise_cons]; exact ⟨h.1, h.2⟩
      · next hne =>
        rw [List.pairwise_cons]
        refine ⟨?_, ih h.2⟩
        intro e he
        rcases mapAdd_keys k v m e he with h' | ⟨e', he', h'⟩
        · simp only at hk hne ⊢; rw [h']; omega
        · rw [← h']; exact h.1 e' he'

theorem rowMap_spec (w : Nat) (row : List (F × Index)) :
    (rowMap w row).Pairwise (fun a b => a.1 < b.1) ∧ ∀ c, look (rowMap w row) c = entry (col w) row c := by
  have key : ∀ (row : List (F × Index)) (m : List (Nat × F)), m.Pairwise (fun a b => a.1 < b.1) →
      (row.foldl (fun m t => mapAdd (col w t.2) t.1 m) m).Pairwise (fun a b => a.1 < b.1) ∧
      ∀ c, look (row.foldl (fun m t => mapAdd (col w t.2) t.1 m) m) c = look m c + entry (col w) row c := by
    intro row
    induction row with
    | nil => intro m hm; exact ⟨hm, by simp [entry]⟩
    | cons t row ih =>
      intro m hm
      obtain ⟨h1, h2⟩ := ih (mapAdd (col w t.2) t.1 m) (mapAdd_sorted _ _ _ hm)
      refine ⟨h1, ?_⟩
      intro c
      rw [List.foldl_cons, h2, look_mapAdd]
      unfold entry
      by_cases h : col w t.2 = c <;> simp [h]; ring
  obtain ⟨h1, h2⟩ := key row [] List.Pairwise.nil
  exact ⟨h1, fun c => by rw [rowMap, h2]; simp [look]⟩

theorem look_none (m : List (Nat × F)) (c : Nat) (h : ∀ e ∈ m, e.1 ≠ c) : look m c = 0 := by
  unfold look
  rw [List.filter_eq_nil_iff.2 (by simpa using h)]; rfl

theorem mem_iff_look (m : List (Nat × F)) (h : m.Pairwise fun a b => a.1 < b.1) (c : Nat) (v : F)
    (hv : v ≠ 0) : (c, v) ∈ m ↔ look m c = v := by
  induction m with
  | nil => simp [look]; exact fun h => hv h.symm
  | cons e m ih =>
    obtain ⟨k, x⟩ := e
    rw [List.pairwise_cons] at h
    rw [look_cons, List.mem_cons, Prod.mk.injEq]
    by_cases hk : k = c
    · subst hk
      have hn := look_none m k (fun e he hc => by have := h.1 e he; simp only at this; omega)
      rw [if_pos rfl, hn, add_zero]
      constructor
      · rintro (⟨_, h⟩ | h')
        · exact h.symm
        · have := h.1 _ h'; simp at this
      · intro h; left; exact ⟨rfl, h.symm⟩
    · rw [if_neg hk, zero_add, ← ih h.2]
      constructor
      · rintro (⟨h, _⟩ | h)
        · exact absurd h.symm hk
        · exact h
      · intro h; right; exact h

/-- The sparse list of a matrix: the three lists have the same length, no value is zero, no position
occurs twice, and position `(i, c)` holds `v` exactly when `v` is the nonzero sum of the coefficients
that row `i` gives for column `c`. -/
theorem C48 [DecidableEq F] (m : Rows F) (w : Nat) (vals : List F) (rows cols : List Nat)
    (h : switchMatrixToList m w = (vals, rows, cols)) :
    vals.length = rows.length ∧ rows.length = cols.length ∧ (∀ v ∈ vals, v ≠ 0) ∧
    (rows.zip cols).Nodup ∧
    ∀ i c v, (v, i, c) ∈ vals.zip (rows.zip cols) ↔ v ≠ 0 ∧ entry (col w) (m.getD i []) c = v := by
  unfold switchMatrixToList at h
  simp only [Prod.mk.injEq] at h
  obtain ⟨rfl, rfl, rfl⟩ := h
  set l := m.zipIdx.flatMap fun (x : List (F × Index) × Nat) =>
    ((rowMap w x.1).filter fun e => e.2 ≠ 0).map fun e => (e.2, x.2, e.1) with hl
  have hz : (l.map (·.2.1)).zip (l.map (·.2.2)) = l.map (·.2) := by
    rw [List.zip_map']
  have hzz : (l.map (·.1)).zip (l.map (·.2)) = l := by
    rw [List.zip_map']; simp
  have hmem : ∀ i c v, (v, i, c) ∈ l ↔ v ≠ 0 ∧ entry (col w) (m.getD i []) c = v := by
    intro i c v
    rw [hl, List.mem_flatMap]
    constructor
    · rintro ⟨⟨row, j⟩, hr, he⟩
      simp only [List.mem_map, List.mem_filter, decide_eq_true_eq, Prod.mk.injEq] at he
      obtain ⟨⟨k, x⟩, ⟨hk, hx⟩, rfl, rfl, rfl⟩ := he
      have hm := List.mem_zipIdx hr
      have hj : j < m.length := by have := hm.2.1; simpa using this
      have hrow : row = m.getD j [] := by
        have := hm.2.2; simp at this; rw [List.getD_eq_getElem _ _ hj]; exact this
      refine ⟨hx, ?_⟩
      obtain ⟨h1, h2⟩ := rowMap_spec w row
      rw [← hrow, ← h2]
      exact (mem_iff_look _ h1 k x hx).1 hk
    · rintro ⟨hv, he⟩
      have hi : i < m.length := by
        by_contra hc
        rw [List.getD_eq_default _ _ (by omega)] at he
        exact hv (by rw [← he]; simp [entry])
      refine ⟨(m.getD i [], i), ?_, ?_⟩
      · rw [List.mem_iff_getElem?]
        exact ⟨i, by simp [hi]⟩
      · obtain ⟨h1, h2⟩ := rowMap_spec w (m.getD i [])
        simp only [List.mem_map, List.mem_filter, decide_eq_true_eq, Prod.mk.injEq]
        exact ⟨(c, v), ⟨(mem_iff_look _ h1 c v hv).2 (by rw [h2, he]), hv⟩, by simp⟩
  refine ⟨by simp, by simp, ?_, ?_, ?_⟩
  · intro v hv
    rw [List.mem_map] at hv
    obtain ⟨⟨x, i, c⟩, hx, rfl⟩ := hv
    exact ((hmem i c x).1 hx).1
  · rw [hz, hl]
    have key : ∀ (m : Rows F) (k : Nat), ((((m.zipIdx k).flatMap fun (x : List (F × Index) × Nat) =>
        ((rowMap w x.1).filter fun e => e.2 ≠ 0).map fun e => (e.2, x.2, e.1))).map (·.2)).Nodup := by
      intro m
      induction m with
      | nil => intro k; simp
      | cons row m ih =>
        intro k
        rw [List.zipIdx_cons, List.flatMap_cons, List.map_append, List.nodup_append]
        refine ⟨?_, ih (k + 1), ?_⟩
        · rw [List.map_map]
          apply List.Nodup.map_on
          · intro x hx y hy hxy
            simp only [Function.comp, Prod.mk.injEq, true_and] at hxy
            rw [List.mem_filter, decide_eq_true_eq] at hx hy
            have hs := (rowMap_spec w row).1
            have h1 := (mem_iff_look _ hs x.1 x.2 hx.2).1 hx.1
            have h2 := (mem_iff_look _ hs y.1 y.2 hy.2).1 hy.1
            rw [← hxy, h1] at h2
            exact Prod.ext hxy h2
          · apply List.Nodup.filter
            have hs := (rowMap_spec w row).1
            exact hs.imp (fun h he => by rw [he] at h; exact lt_irrefl _ h)
        · intro a ha b hb hab
          subst hab
          rw [List.map_map, List.mem_map] at ha
          obtain ⟨e, _, rfl⟩ := ha
          rw [List.mem_map] at hb
          obtain ⟨⟨x, i, c⟩, hx, he⟩ := hb
          rw [List.mem_flatMap] at hx
          obtain ⟨⟨r, j⟩, hr, hx⟩ := hx
          have hm := (List.mem_zipIdx hr).1
          simp only [List.mem_map, List.mem_filter, Prod.mk.injEq] at hx
          obtain ⟨_, _, _, rfl, _⟩ := hx
          simp only [Function.comp, Prod.mk.injEq] at he
          omega
    exact key m 0
  · intro i c v
    rw [hz, hzz]
    exact hmem i c v

/-- Auxiliary variables and public inputs have different columns as long as the auxiliary variables are
fewer than the offset `w` (in `encode`, `w` is the larger of the two counts, rounded up to a power of
two). -/
theorem C48_columns (w : Nat) (u v : Index) (hu : ∀ i, u = .aux i → i < w) (hv : ∀ i, v = .aux i → i < w)
    (h : col w u = col w v) : u = v := by
  cases u <;> cases v <;> simp only [col] at h
  · have : _ := h; congr 1; omega
  · next i j => have := hv j rfl; omega
  · next i j => have := hu i rfl; omega
  · congr 1

example : col 4 (.aux 3) ≠ col 4 (.input 0) := fun h => by
  have := C48_columns 4 (.aux 3) (.input 0) (fun i hi => by cases hi; decide) (fun i hi => by cases hi) h
  cases this

/-- `generate_r1cs` pads the constraints to a power of two and keeps their meaning: exactly the
assignments that satisfy the circuit's constraints satisfy the instance. -/
theorem C48_generate (cs : CS F) (z : Index → F) (h1 : z (.input 0) = 1) :
    ((generateR1cs cs).Sat z ↔ CS.Sat z cs) ∧
    (∃ k, (generateR1cs cs).numConstraints = 2 ^ k) ∧
    (generateR1cs cs).a.length = (generateR1cs cs).numConstraints ∧
    (generateR1cs cs).b.length = (generateR1cs cs).numConstraints ∧
    (generateR1cs cs).c.length = (generateR1cs cs).numConstraints := by
  have hle : cs.constraints.length ≤ padTo cs.constraints.length :=
    Nat.le_pow_clog (by norm_num) _
  have hrow : ∀ l : LC F, rowVal z (pushRow l) = l.eval z := by
    intro l
    unfold rowVal pushRow LC.eval
    rw [List.map_map]
    rfl
  refine ⟨?_, ⟨_, rfl⟩, by simp [generateR1cs]; omega, by simp [generateR1cs]; omega,
    by simp [generateR1cs]; omega⟩
  have hget : ∀ (f : R1C F → LC F) (i : Nat) (hi : i < cs.constraints.length),
      ((cs.constraints.map fun k => pushRow (f k)) ++
        List.replicate (padTo cs.constraints.length - cs.constraints.length) []).getD i [] =
        pushRow (f cs.constraints[i]) := by
    intro f i hi
    rw [List.getD_append _ _ _ _ (by simpa using hi), List.getD_eq_getElem _ _ (by simpa using hi)]
    simp
  have hpad : ∀ (f : R1C F → LC F) (i : Nat), cs.constraints.length ≤ i →
      ((cs.constraints.map fun k => pushRow (f k)) ++
        List.replicate (padTo cs.constraints.length - cs.constraints.length) []).getD i [] = [] := by
    intro f i hi
    rw [List.getD_append_right _ _ _ _ (by simpa using hi)]
    by_cases hk : i - (cs.constraints.map fun k => pushRow (f k)).length <
        padTo cs.constraints.length - cs.constraints.length
    · rw [List.getD_eq_getElem _ _ (by simpa using hk)]; simp
    · rw [List.getD_eq_default _ _ (by simpa using hk)]
  constructor
  · rintro ⟨_, h⟩
    intro k hk
    obtain ⟨i, hi, rfl⟩ := List.mem_iff_getElem.1 hk
    have := h i (lt_of_lt_of_le hi hle)
    simp only [generateR1cs] at this
    rw [hget R1C.a i hi, hget R1C.b i hi, hget R1C.c i hi, hrow, hrow, hrow] at this
    exact this
  · intro h
    refine ⟨h1, ?_⟩
    intro i _
    simp only [generateR1cs]
    by_cases hi : i < cs.constraints.length
    · rw [hget R1C.a i hi, hget R1C.b i hi, hget R1C.c i hi, hrow, hrow, hrow]
      exact h _ (List.getElem_mem hi)
    · rw [hpad R1C.a i (by omega), hpad R1C.b i (by omega), hpad R1C.c i (by omega)]
      simp [rowVal]

/-- A matrix with a repeated variable, a cancelling pair and an empty row. -/
example : switchMatrixToList ([[(3, .input 0), (2, .aux 1), (4, .input 0)], [], [(5, .aux 0), (12, .aux 0)],
    [(1, .aux 0)]] : Rows F17) 2 = ([2, 7, 1], [0, 0, 3], [1, 2, 0]) := by decide

/-- Three constraints, padded to four: `x·x = y`, `y·x = z`, `z·1 = out` with `x = 2`. -/
example : (generateR1cs (F := F17) ⟨true, [1, 8], [2, 4, 8],
      [⟨[(.aux 0, 1)], [(.aux 0, 1)], [(.aux 1, 1)]⟩, ⟨[(.aux 1, 1)], [(.aux 0, 1)], [(.aux 2, 1)]⟩,
        ⟨[(.aux 2, 1)], [(.input 0, 1)], [(.input 1, 1)]⟩]⟩).Sat
    (fun v => match v with | .input i => ([1, 8] : List F17).getD i 0 | .aux i => ([2, 4, 8] : List F17).getD i 0) :=
  (C48_generate _ _ (by rfl)).1.2 (by
    intro k hk
    simp only [List.mem_cons, List.not_mem_nil, or_false] at hk
    rcases hk with rfl | rfl | rfl <;> simp only [R1C.Holds] <;> decide)

end Zkp.Spartan
