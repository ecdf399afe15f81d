import Verif.Model.Mimc
import Verif.Spec.Mimc
import Verif.Proof.Field
import Verif.Proof.Blake2s

set_option linter.unusedSectionVars false
set_option linter.unusedSimpArgs false

namespace Zkp

variable {F : Type} [Field F]

namespace Mimc

theorem foldl_range_getD {τ : Type} (k : List F) (g : τ → F → τ) (t : τ) {n : Nat}
    (h : k.length = n) :
    (List.range n).foldl (fun s i => g s (k.getD i 0)) t = k.foldl g t := by
  subst h
  have : k = (List.range k.length).map fun i => k.getD i 0 := by
    apply List.ext_getElem
    · simp
    · intro i h1 h2
      rw [List.getElem_map, List.getElem_range, List.getD_eq_getElem _ _ h1]
  conv_rhs => rw [this]
  rw [List.foldl_map]

theorem block_eq {k : List F} (hk : k.length = 322) (xl xr : F) :
    block xl xr k = mimcSpec k xl xr := by
  unfold block mimcSpec
  rw [← foldl_range_getD k _ _ hk]
  congr 1
  apply congrArg (fun f => List.foldl f (xl, xr) (List.range 322))
  funext s i
  simp only [blockStep]
  congr 1
  ring

theorem round_snd (k : List F) (s : St F) (i : Nat) :
    Snd (round k s i) (fun w s' => (w s'.xl, w s'.xr) = blockStep k (w s.xl, w s.xr) i) := by
  unfold round blockStep
  generalize k.getD i 0 = c
  refine (Snd.alloc _).bind fun tmp => (Snd.enforce _ _ _).bind fun _ => (Snd.alloc _).bind
    fun nw => (Snd.enforce _ _ _).bind fun _ => Snd.pure ?_
  intro w h1 he _ he' _
  simp [h1] at he he'
  simp only [Prod.mk.injEq, and_true]
  linear_combination -he - (w s.xl + c) * he'

theorem circuit_snd (k : List F) (xl xr : Option F) :
    Snd (circuit k xl xr) (fun w r => w r.2.xl = block (w r.1.1) (w r.1.2) k) := by
  unfold circuit
  refine (Snd.alloc _).bind fun a => (Snd.alloc _).bind fun b => ?_
  refine (Snd.foldlM (abs := fun w (s : St F) => (w s.xl, w s.xr)) (g := fun _ => blockStep k)
    (round_snd k) (List.range ROUNDS) ⟨a, b, xl, xr⟩).bind fun s => Snd.pure ?_
  intro w h1 h _ _
  exact congrArg Prod.fst h

/-- The circuit state carries the pair `t`. -/
structure Carries (cs : CS F) (s : St F) (t : F × F) : Prop where
  l : VarIs cs s.xl t.1
  r : VarIs cs s.xr t.2
  lv : s.xlValue = some t.1
  rv : s.xrValue = some t.2

theorem round_cmp (k : List F) {cs : CS F} {s : St F} {t : F × F} (i : Nat) (h : Carries cs s t) :
    Cmp cs (round k s i) (fun s' cs' => Carries cs' s' (blockStep k t i)) := by
  unfold round
  simp only [h.lv, h.rv, Option.map_some]
  refine (Cmp.alloc' rfl).bind fun tmp cs1 e1 h1 => (Cmp.enforce ?_).bind fun _ cs2 e2 _ =>
    (Cmp.alloc' rfl).bind fun nw cs3 e3 h3 => (Cmp.enforce ?_).bind fun _ cs4 e4 _ => Cmp.pure ?_
  · intro w ho hw
    simp [ho, (h.l.mono e1) w hw, h1 w hw]
  · intro w ho hw
    have e13 := e2.trans e3
    simp [ho, (h.l.mono (e1.trans e13)) w hw, (h.r.mono (e1.trans e13)) w hw,
      (VarIs.mono h1 e13) w hw, h3 w hw]
    ring
  · have e14 := e1.trans (e2.trans (e3.trans e4))
    refine ⟨?_, h.l.mono e14, ?_, rfl⟩
    · intro w hw
      rw [(VarIs.mono h3 e4) w hw]
      simp only [blockStep]; ring
    · simp only [blockStep]; congr 1; ring

theorem circuit_cmp (k : List F) {cs : CS F} (xl xr : F) :
    Cmp cs (circuit k (some xl) (some xr)) (fun r cs' => VarIs cs' r.1.1 xl ∧ VarIs cs' r.1.2 xr ∧
      VarIs cs' r.2.xl (block xl xr k)) := by
  unfold circuit
  refine (Cmp.alloc' rfl).bind fun a cs1 e1 h1 => (Cmp.alloc' rfl).bind fun b cs2 e2 h2 => ?_
  have h0 : Carries cs2 (⟨a, b, some xl, some xr⟩ : St F) (xl, xr) := ⟨h1.mono e2, h2, rfl, rfl⟩
  refine (Cmp.foldlM (Rs := Carries) (g := blockStep k) (List.range ROUNDS)
    (fun cs s t i _ h => round_cmp k i h) h0).bind fun s cs3 e3 h3 => Cmp.pure ?_
  exact ⟨(VarIs.mono h1 e2).mono e3, VarIs.mono h2 e3, h3.l⟩

/-- The native hash is the chaining of the block function. -/
theorem hashElems_eq {k : List F} (hk : k.length = 322) (v : List F) (x : F) :
    hashElems k (v ++ [x]) = some (mimcChain k v, x, mimcChain k (v ++ [x])) := by
  have hb : ∀ a b : F, block a b k = mimcSpec k a b := block_eq hk
  unfold hashElems
  simp only [List.getLast?_append, List.getLast?_singleton, Option.some_or]
  have key : ∀ (l : List F) (off : Nat) (a h : F), off + l.length ≤ (v ++ [x]).length - 1 →
      (l.zipIdx off).foldl (fun (s : F × F) (e : F × Nat) =>
        ((if e.2 = (v ++ [x]).length - 1 then s.2 else s.1), block s.2 e.1 k)) (a, h) =
      (a, l.foldl (fun h x => mimcSpec k h x) h) := by
    intro l
    induction l with
    | nil => intro off a h _; rfl
    | cons y l ih =>
      intro off a h hle
      rw [List.zipIdx_cons, List.foldl_cons, List.foldl_cons]
      simp only [List.length_cons] at hle
      rw [if_neg (by show ¬ off = _; omega), ih _ _ _ (by omega), hb]
  rw [List.zipIdx_append, List.foldl_append, key v 0 0 0 (by simp)]
  simp [mimcChain, List.foldl_append, hb]

theorem hashElems_nil (k : List F) : hashElems k [] = none := rfl

end Mimc
end Zkp
