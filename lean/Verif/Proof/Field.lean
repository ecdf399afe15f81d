/- Field-valued circuit variables: folding rules and values of variables during a proving run. -/
import Verif.Proof.Cs
import Verif.Proof.LC

set_option linter.unusedSectionVars false

namespace Zkp

variable {F : Type} [Field F]

/-- During a proving run the variable `v` has been given the value `x`. -/
def VarIs (cs : CS F) (v : Index) (x : F) : Prop := ∀ w : Index → F, cs.Agrees w → w v = x

theorem VarIs.mono {cs cs' : CS F} {v : Index} {x : F} (h : VarIs cs v x) (e : cs.Ext cs') :
    VarIs cs' v x := fun w hw => h w (e.agrees hw)

theorem Snd.foldlM {σ τ ι : Type} {f : σ → ι → Synth F σ} {abs : (Index → F) → σ → τ}
    {g : (Index → F) → τ → ι → τ}
    (hf : ∀ s i, Snd (f s i) (fun w s' => abs w s' = g w (abs w s) i)) (l : List ι) (s : σ) :
    Snd (l.foldlM f s) (fun w s' => abs w s' = l.foldl (g w) (abs w s)) := by
  induction l generalizing s with
  | nil => exact Snd.pure fun _ _ => rfl
  | cons i l ih =>
    rw [List.foldlM_cons]
    exact (hf s i).bind fun s' => (ih s').weaken fun w _ s'' h h' => by rw [h, h', List.foldl_cons]

theorem Cmp.foldlM {σ τ ι : Type} {f : σ → ι → Synth F σ} {Rs : CS F → σ → τ → Prop}
    {g : τ → ι → τ} (l : List ι)
    (hf : ∀ cs s t i, i ∈ l → Rs cs s t → Cmp cs (f s i) (fun s' cs' => Rs cs' s' (g t i)))
    {cs : CS F} {s : σ} {t : τ} (h : Rs cs s t) :
    Cmp cs (l.foldlM f s) (fun s' cs' => Rs cs' s' (l.foldl g t)) := by
  induction l generalizing s t cs with
  | nil => exact Cmp.pure h
  | cons i l ih =>
    rw [List.foldlM_cons]
    exact (hf cs s t i List.mem_cons_self h).bind fun s' cs' _ h' =>
      ih (fun cs s t i hi => hf cs s t i (List.mem_cons_of_mem _ hi)) h'

theorem Cmp.alloc' {cs : CS F} {f : Except SynthesisError F} {v : F} (hf : f = .ok v) :
    Cmp cs (Zkp.alloc f) (fun a cs' => VarIs cs' a v) := Cmp.alloc hf

theorem Cmp.allocInput' {cs : CS F} {f : Except SynthesisError F} {v : F} (hf : f = .ok v) :
    Cmp cs (Zkp.allocInput f) (fun a cs' => VarIs cs' a v) := Cmp.allocInput hf

/-- In a proving run, a missing value makes `alloc` fail. -/
theorem alloc_missing {cs : CS F} (hp : cs.proving = true) (e : SynthesisError) :
    alloc (.error e) cs = .error e := by simp [alloc, hp]

/-- Every state reached by a proving run has a matching assignment. -/
noncomputable def CS.witness (cs : CS F) : Index → F
  | .input i => cs.inputs.getD i 0
  | .aux i => cs.aux.getD i 0

theorem CS.witness_agrees (cs : CS F) : cs.Agrees cs.witness := by
  constructor <;> intro i v h <;> simp [CS.witness, List.getD_eq_getElem?_getD, h]

theorem CS.Good.sat {cs : CS F} (h : cs.Good) : cs.Sat cs.witness := h.valid _ cs.witness_agrees

theorem CS.Good.witness_one {cs : CS F} (h : cs.Good) : cs.witness .one = 1 :=
  h.one_eq cs.witness_agrees

end Zkp
