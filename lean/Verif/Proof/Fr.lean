import Verif.Model.Fr
import Verif.Proof.Boolean
import Verif.Proof.Field
import Mathlib.Algebra.BigOperators.Group.Finset.Basic
import Mathlib.Data.List.GetD
import Mathlib.Tactic.LinearCombination
import Mathlib.Tactic.Tauto

set_option linter.unusedSectionVars false
set_option linter.unusedSimpArgs false

namespace Zkp

variable {F : Type} [Field F]

namespace AllocatedFr

/-- During a proving run: the element carries the value `x`. -/
def Known (cs : CS F) (a : AllocatedFr F) (x : F) : Prop := a.value = some x ∧ VarIs cs a.variable_ x

theorem alloc_snd (f : Except SynthesisError F) :
    Snd (AllocatedFr.alloc f) (fun _ _ => True) := by
  unfold AllocatedFr.alloc
  exact Snd.isProving.bind fun _ => (Snd.alloc _).bind fun _ => Snd.pure fun _ _ => by simp

theorem alloc_cmp {cs : CS F} {f : Except SynthesisError F} {x : F} (hf : f = .ok x) :
    Cmp cs (AllocatedFr.alloc f) (fun a cs' => Known cs' a x) := by
  subst hf
  intro hg
  obtain ⟨v, cs', h1, h2, h3, h4⟩ := Cmp.alloc' (cs := cs) (f := .ok x) rfl hg
  refine ⟨⟨some x, v⟩, cs', ?_, h2, h3, rfl, h4⟩
  simp only [AllocatedFr.alloc, bind, StateT.bind, Except.bind, isProving, h1, pure, StateT.pure,
    Except.pure, hg.proving, if_true, Except.toOption]

theorem Known.mono {cs cs' : CS F} {a : AllocatedFr F} {x : F} (h : Known cs a x) (e : cs.Ext cs') :
    Known cs' a x := ⟨h.1, h.2.mono e⟩

end AllocatedFr

namespace Lookup

theorem synthStep_getD (a : List F) (c : F) (k j : Nat) (hj : j < a.length) :
    (synthStep a (c, k)).getD j 0 = if j = k then -(a.getD k 0) + c
      else if k < j ∧ j &&& k = k then a.getD j 0 + (-(a.getD k 0) + c) else a.getD j 0 := by
  unfold synthStep
  have hl : j < (a.mapIdx fun j x => if j = k then -(a.getD k 0) + c
      else if k < j ∧ j &&& k = k then x + (-(a.getD k 0) + c) else x).length := by simpa using hj
  rw [List.getD_eq_getElem _ _ hl, List.getElem_mapIdx, List.getD_eq_getElem _ _ hj]

theorem synthStep_length (a : List F) (e : F × Nat) : (synthStep a e).length = a.length := by
  simp [synthStep]

theorem synth_fold (N : Nat) (cs : List F) (h : cs.length ≤ N) :
    let A := cs.zipIdx.foldl synthStep (List.replicate N (0 : F))
    A.length = N ∧
    (∀ j, cs.length ≤ j → j < N →
      A.getD j 0 = ∑ i ∈ Finset.range cs.length, if i &&& j = i then A.getD i 0 else 0) ∧
    (∀ m, m < cs.length →
      ∑ i ∈ Finset.range cs.length, (if i &&& m = i then A.getD i 0 else 0) = cs.getD m 0) := by
  induction cs using List.reverseRecOn with
  | nil =>
    refine ⟨by simp, fun j _ hj => ?_, fun m hm => by simp at hm⟩
    rw [List.getD_eq_getElem _ _ (by simpa using hj)]
    simp
  | append_singleton cs c ih =>
    rw [List.length_append, List.length_singleton] at h
    obtain ⟨hl, h1, h2⟩ := ih (by omega)
    generalize hA : cs.zipIdx.foldl synthStep (List.replicate N (0 : F)) = A at hl h1 h2
    have hf : (cs ++ [c]).zipIdx.foldl synthStep (List.replicate N (0 : F)) =
        synthStep A (c, cs.length) := by
      rw [List.zipIdx_append, List.foldl_append, hA]
      simp
    simp only [hf]
    generalize hk : cs.length = k at *
    rw [List.length_append, List.length_singleton, hk]
    have hlt : ∀ i, i < k → (synthStep A (c, k)).getD i 0 = A.getD i 0 := by
      intro i hi
      rw [synthStep_getD A c k i (by omega), if_neg (by omega), if_neg (by omega)]
    have hkk : (synthStep A (c, k)).getD k 0 = -(A.getD k 0) + c := by
      rw [synthStep_getD A c k k (by omega), if_pos rfl]
    have hsum : ∀ m, ∑ i ∈ Finset.range (k + 1),
        (if i &&& m = i then (synthStep A (c, k)).getD i 0 else 0) =
        (∑ i ∈ Finset.range k, if i &&& m = i then A.getD i 0 else 0) +
          if k &&& m = k then -(A.getD k 0) + c else 0 := by
      intro m
      rw [Finset.sum_range_succ, hkk]
      congr 1
      apply Finset.sum_congr rfl
      intro i hi
      rw [hlt i (Finset.mem_range.mp hi)]
    refine ⟨by rw [synthStep_length, hl], fun j hj hjN => ?_, fun m hm => ?_⟩
    · rw [hsum, synthStep_getD A c k j (by omega), if_neg (by omega), ← h1 j (by omega) hjN,
        Nat.and_comm]
      by_cases hc : k &&& j = k
      · rw [if_pos ⟨by omega, hc⟩, if_pos hc]
      · rw [if_neg (by tauto), if_neg hc, add_zero]
    · rw [hsum]
      rcases Nat.lt_succ_iff_lt_or_eq.mp hm with hm | rfl
      · rw [h2 m hm, if_neg]
        · rw [add_zero, List.getD_append _ _ _ _ (by omega)]
        · intro hc
          have : k &&& m ≤ m := Nat.and_le_right
          omega
      · rw [if_pos (Nat.and_self m), ← h1 m (le_refl _) (by omega)]
        rw [List.getD_append_right _ _ _ _ (by omega)]
        simp [hk]

/-- The index addressed by three bits. -/
def idx3 (x y z : Bool) : Nat := x.toNat + 2 * y.toNat + 4 * z.toNat

/-- The index addressed by two bits. -/
def idx2 (x y : Bool) : Nat := x.toNat + 2 * y.toNat

theorem index2_known {cs : CS F} {b0 b1 : Boolean} {x y : Bool} (h0 : b0.Known cs x)
    (h1 : b1.Known cs y) : index2 b0 b1 = some (idx2 x y) := by
  unfold index2
  rw [h0.1, h1.1]
  cases x <;> cases y <;> rfl

theorem index3_known {cs : CS F} {b0 b1 b2 : Boolean} {x y z : Bool} (h0 : b0.Known cs x)
    (h1 : b1.Known cs y) (h2 : b2.Known cs z) : index3 b0 b1 b2 = some (idx3 x y z) := by
  unfold index3
  rw [h0.1, h1.1, h2.1]
  cases x <;> cases y <;> cases z <;> rfl

theorem eq2 (c0 c1 c2 c3 r : F) (x y : Bool) :
    ((if y then 1 else 0) * (c3 - c2 - c1 + c0) + (c1 - c0)) * (if x then 1 else 0) =
      r - c0 + (c0 - c2) * (if y then 1 else 0) ↔ r = [c0, c1, c2, c3].getD (idx2 x y) 0 := by
  cases x <;> cases y <;> simp [idx2] <;> constructor <;> intro h <;>
    first
      | linear_combination -h
      | linear_combination h

theorem enforce2_eval (w : Index → F) (ho : w .one = 1) (b0 b1 : Boolean) (c : List F)
    (res : Index) (hc : c.length = 4) (x y : Bool) (h0 : b0.Rep w x) (h1 : b1.Rep w y) :
    ((LC.zero.add (b1.lc (c.getD 3 0 - c.getD 2 0 - c.getD 1 0 + c.getD 0 0))).addTerm
        (c.getD 1 0 - c.getD 0 0) .one).eval w * (LC.zero.add (b0.lc 1)).eval w =
      (((LC.zero.addVar res).addTerm (-(c.getD 0 0)) .one).add
        (b1.lc (c.getD 0 0 - c.getD 2 0))).eval w ↔ w res = c.getD (idx2 x y) 0 := by
  obtain ⟨c0, c1, c2, c3, rfl⟩ : ∃ c0 c1 c2 c3, c = [c0, c1, c2, c3] := by
    match c, hc with
    | [c0, c1, c2, c3], _ => exact ⟨c0, c1, c2, c3, rfl⟩
  rw [← eq2]
  unfold Boolean.Rep at h0 h1
  simp only [LC.eval_add, LC.eval_addTerm, LC.eval_addVar, LC.eval_zero, Boolean.eval_lc w ho, h0, h1,
    ho, List.getD_cons_zero, List.getD_cons_succ]
  constructor <;> intro h <;> linear_combination h

theorem enforce2_snd (b0 b1 : Boolean) (c : List F) (res : Index) (hc : c.length = 4) :
    Snd (enforce2 b0 b1 c res) (fun w _ => ∀ x y, b0.Rep w x → b1.Rep w y →
      w res = c.getD (idx2 x y) 0) := by
  unfold enforce2
  exact (Snd.enforce _ _ _).weaken fun w ho _ he x y h0 h1 =>
    (enforce2_eval w ho b0 b1 c res hc x y h0 h1).mp he

theorem enforce2_cmp {cs : CS F} {b0 b1 : Boolean} {c : List F} {res : Index} (hc : c.length = 4)
    {x y : Bool} (h0 : b0.Known cs x) (h1 : b1.Known cs y)
    (hr : VarIs cs res (c.getD (idx2 x y) 0)) :
    Cmp cs (enforce2 b0 b1 c res) (fun _ _ => True) := by
  unfold enforce2
  refine (Cmp.enforce ?_).weaken fun _ _ _ _ => trivial
  intro w ho hw
  exact (enforce2_eval w ho b0 b1 c res hc x y (h0.2 w hw) (h1.2 w hw)).mpr (hr w hw)

theorem synth3 (c : List F) (hc : c.length = 8) : ∃ X : List F, synth 3 c = some X ∧
    ∀ m, m < 8 → ∑ i ∈ Finset.range 8, (if i &&& m = i then X.getD i 0 else 0) = c.getD m 0 := by
  obtain ⟨h1, h2, h3⟩ := synth_fold 8 c (by omega)
  refine ⟨c.zipIdx.foldl synthStep (List.replicate 8 0), ?_, fun m hm => ?_⟩
  · unfold synth
    rw [if_pos (by omega)]
  · have := h3 m (by omega)
    rw [hc] at this
    exact this

theorem enforce3_eval (w : Index → F) (ho : w .one = 1) (b0 b1 b2 pc : Boolean) (c X : List F)
    (hX : ∀ m, m < 8 → ∑ i ∈ Finset.range 8, (if i &&& m = i then X.getD i 0 else 0) = c.getD m 0)
    (res : Index) (x y z : Bool) (h0 : b0.Rep w x) (h1 : b1.Rep w y) (h2 : b2.Rep w z)
    (hp : pc.Rep w (y && z)) :
    ((((LC.zero.addTerm (X.getD 1 0) .one).add (b1.lc (X.getD 3 0))).add (b2.lc (X.getD 5 0))).add
      (pc.lc (X.getD 7 0))).eval w * (LC.zero.add (b0.lc 1)).eval w =
    (((((LC.zero.addVar res).subTerm (X.getD 0 0) .one).sub (b1.lc (X.getD 2 0))).sub
      (b2.lc (X.getD 4 0))).sub (pc.lc (X.getD 6 0))).eval w ↔ w res = c.getD (idx3 x y z) 0 := by
  have hm : idx3 x y z < 8 := by cases x <;> cases y <;> cases z <;> decide
  rw [← hX _ hm]
  unfold Boolean.Rep at h0 h1 h2 hp
  simp only [LC.eval_add, LC.eval_sub, LC.eval_addTerm, LC.eval_subTerm, LC.eval_addVar, LC.eval_zero,
    Boolean.eval_lc w ho, h0, h1, h2, hp, ho, Finset.sum_range_succ, Finset.sum_range_zero]
  generalize X.getD 0 0 = x0; generalize X.getD 1 0 = x1; generalize X.getD 2 0 = x2
  generalize X.getD 3 0 = x3; generalize X.getD 4 0 = x4; generalize X.getD 5 0 = x5
  generalize X.getD 6 0 = x6; generalize X.getD 7 0 = x7
  cases x <;> cases y <;> cases z <;> simp [idx3] <;> constructor <;> intro h <;>
    first
      | linear_combination -h
      | linear_combination h

theorem enforce3_snd (b0 b1 b2 pc : Boolean) (c X : List F)
    (hX : ∀ m, m < 8 → ∑ i ∈ Finset.range 8, (if i &&& m = i then X.getD i 0 else 0) = c.getD m 0)
    (res : Index) :
    Snd (enforce3 b0 b1 b2 pc X res) (fun w _ => ∀ x y z, b0.Rep w x → b1.Rep w y → b2.Rep w z →
      pc.Rep w (y && z) → w res = c.getD (idx3 x y z) 0) := by
  unfold enforce3
  exact (Snd.enforce _ _ _).weaken fun w ho _ he x y z h0 h1 h2 hp =>
    (enforce3_eval w ho b0 b1 b2 pc c X hX res x y z h0 h1 h2 hp).mp he

theorem enforce3_cmp {cs : CS F} {b0 b1 b2 pc : Boolean} {c X : List F}
    (hX : ∀ m, m < 8 → ∑ i ∈ Finset.range 8, (if i &&& m = i then X.getD i 0 else 0) = c.getD m 0)
    {res : Index} {x y z : Bool} (h0 : b0.Known cs x) (h1 : b1.Known cs y) (h2 : b2.Known cs z)
    (hp : pc.Known cs (y && z)) (hr : VarIs cs res (c.getD (idx3 x y z) 0)) :
    Cmp cs (enforce3 b0 b1 b2 pc X res) (fun _ _ => True) := by
  unfold enforce3
  refine (Cmp.enforce ?_).weaken fun _ _ _ _ => trivial
  intro w ho hw
  exact (enforce3_eval w ho b0 b1 b2 pc c X hX res x y z (h0.2 w hw) (h1.2 w hw) (h2.2 w hw)
    (hp.2 w hw)).mpr (hr w hw)

end Lookup
end Zkp
