/- Program logic for gadget code: soundness triples (`Snd`) and completeness triples (`Cmp`). -/
import Verif.Spec.Cs
import Verif.Proof.LC
import Mathlib.Tactic.Ring
import Mathlib.Tactic.LinearCombination

set_option linter.unusedSectionVars false
set_option linter.unusedSimpArgs false

namespace Zkp

variable {F : Type} [Field F]

theorem CS.Ext.refl (cs : CS F) : cs.Ext cs :=
  ⟨rfl, List.prefix_refl _, List.prefix_refl _, List.prefix_refl _⟩

theorem CS.Ext.trans {a b c : CS F} (h1 : a.Ext b) (h2 : b.Ext c) : a.Ext c :=
  ⟨h2.proving.trans h1.proving, h1.inputs.trans h2.inputs, h1.aux.trans h2.aux,
   h1.constraints.trans h2.constraints⟩

theorem CS.Ext.sat {a b : CS F} (h : a.Ext b) {w : Index → F} (hs : b.Sat w) : a.Sat w :=
  fun k hk => hs k (h.constraints.subset hk)

theorem prefix_getElem? {α : Type} {l l' : List α} (h : l <+: l') {i : Nat} {v : α}
    (hi : l[i]? = some v) : l'[i]? = some v := by
  obtain ⟨t, rfl⟩ := h
  have : i < l.length := by
    rcases Nat.lt_or_ge i l.length with h | h
    · exact h
    · simp [List.getElem?_eq_none h] at hi
  rw [List.getElem?_append_left this]; exact hi

theorem CS.Ext.agrees {a b : CS F} (h : a.Ext b) {w : Index → F} (hs : b.Agrees w) :
    a.Agrees w :=
  ⟨fun i v hi => hs.1 i v (prefix_getElem? h.inputs hi),
   fun i v hi => hs.2 i v (prefix_getElem? h.aux hi)⟩

theorem Boolean.Known.mono {a b : CS F} (h : a.Ext b) {x : Boolean} {v : Bool}
    (hk : x.Known a v) : x.Known b v := ⟨hk.1, fun w hw => hk.2 w (h.agrees hw)⟩

theorem UInt32G.Known.mono {a b : CS F} (h : a.Ext b) {x : UInt32G} {v : BitVec 32}
    (hk : x.Known a v) : x.Known b v :=
  ⟨hk.1, hk.2.1, fun i y hy => (hk.2.2 i y hy).mono h⟩

/-- Monadic inversion. -/
theorem Synth.bind_ok {α β : Type} {m : Synth F α} {f : α → Synth F β} {s s'' : CS F} {b : β} :
    (m >>= f) s = .ok (b, s'') ↔ ∃ a s', m s = .ok (a, s') ∧ f a s' = .ok (b, s'') := by
  change (StateT.bind m f s = .ok (b, s'')) ↔ _
  unfold StateT.bind
  cases hm : m s with
  | error e => simp [bind, Except.bind]
  | ok p =>
    obtain ⟨a, s'⟩ := p
    simp only [bind, Except.bind, Except.ok.injEq, Prod.mk.injEq]
    constructor
    · intro h; exact ⟨a, s', ⟨rfl, rfl⟩, h⟩
    · rintro ⟨a', t, ⟨rfl, rfl⟩, h⟩; exact h

theorem Synth.pure_ok {α : Type} {a b : α} {s s' : CS F} :
    (pure a : Synth F α) s = .ok (b, s') ↔ a = b ∧ s = s' := by
  change (Except.ok (a, s) = Except.ok (b, s')) ↔ _
  simp

theorem enforce_ok {a b c : LC F} {cs cs' : CS F} {u : Unit} :
    enforce a b c cs = .ok (u, cs') ↔
      cs' = { cs with constraints := cs.constraints ++ [⟨a, b, c⟩] } := by
  unfold enforce
  constructor
  · intro h; cases h; rfl
  · rintro rfl; rfl

/-- Soundness triple: whatever state `m` starts in (any mode), it only appends, and every
satisfying assignment of the final system makes `P` true of the result. -/
def Snd {α : Type} (m : Synth F α) (P : (Index → F) → α → Prop) : Prop :=
  ∀ cs a cs', m cs = .ok (a, cs') → cs.Ext cs' ∧ ∀ w : Index → F, w .one = 1 → cs'.Sat w → P w a

theorem Snd.bind {α β : Type} {m : Synth F α} {f : α → Synth F β} {P : (Index → F) → α → Prop}
    {Q : (Index → F) → β → Prop} (hm : Snd m P)
    (hf : ∀ a, Snd (f a) (fun w b => P w a → Q w b)) : Snd (m >>= f) Q := by
  intro cs b cs'' h
  obtain ⟨a, cs', h1, h2⟩ := Synth.bind_ok.mp h
  obtain ⟨e1, p1⟩ := hm _ _ _ h1
  obtain ⟨e2, p2⟩ := hf a _ _ _ h2
  exact ⟨e1.trans e2, fun w hw hs => p2 w hw hs (p1 w hw (e2.sat hs))⟩

theorem Snd.pure {α : Type} {a : α} {P : (Index → F) → α → Prop}
    (h : ∀ w : Index → F, w .one = 1 → P w a) : Snd (Pure.pure a : Synth F α) P := by
  intro cs b cs' hb
  obtain ⟨rfl, rfl⟩ := Synth.pure_ok.mp hb
  exact ⟨CS.Ext.refl _, fun w hw _ => h w hw⟩

theorem Snd.weaken {α : Type} {m : Synth F α} {P Q : (Index → F) → α → Prop} (hm : Snd m P)
    (h : ∀ w : Index → F, w .one = 1 → ∀ a, P w a → Q w a) : Snd m Q := by
  intro cs a cs' ha
  obtain ⟨e, p⟩ := hm _ _ _ ha
  exact ⟨e, fun w hw hs => h w hw a (p w hw hs)⟩

theorem Snd.map {α β : Type} {m : Synth F α} {f : α → β} {P : (Index → F) → α → Prop}
    {Q : (Index → F) → β → Prop} (hm : Snd m P)
    (h : ∀ w : Index → F, w .one = 1 → ∀ a, P w a → Q w (f a)) :
    Snd (m >>= fun a => Pure.pure (f a)) Q :=
  hm.bind fun a => Snd.pure fun w hw => h w hw a

theorem ext_append_aux (cs : CS F) (v : F) : cs.Ext { cs with aux := cs.aux ++ [v] } :=
  ⟨rfl, List.prefix_refl _, List.prefix_append _ _, List.prefix_refl _⟩

theorem ext_append_inputs (cs : CS F) (v : F) : cs.Ext { cs with inputs := cs.inputs ++ [v] } :=
  ⟨rfl, List.prefix_append _ _, List.prefix_refl _, List.prefix_refl _⟩

theorem ext_append_constraint (cs : CS F) (k : R1C F) :
    cs.Ext { cs with constraints := cs.constraints ++ [k] } :=
  ⟨rfl, List.prefix_refl _, List.prefix_refl _, List.prefix_append _ _⟩

theorem Snd.alloc (f : Except SynthesisError F) : Snd (alloc f) (fun _ _ => True) := by
  intro cs a cs' h
  unfold Zkp.alloc at h
  split at h
  · split at h
    · simp at h
    · simp only [Except.ok.injEq, Prod.mk.injEq] at h
      obtain ⟨rfl, rfl⟩ := h
      exact ⟨ext_append_aux _ _, fun _ _ _ => trivial⟩
  · simp only [Except.ok.injEq, Prod.mk.injEq] at h
    obtain ⟨rfl, rfl⟩ := h
    exact ⟨ext_append_aux _ _, fun _ _ _ => trivial⟩

theorem Snd.allocInput (f : Except SynthesisError F) :
    Snd (allocInput f) (fun _ _ => True) := by
  intro cs a cs' h
  unfold Zkp.allocInput at h
  split at h
  · split at h
    · simp at h
    · simp only [Except.ok.injEq, Prod.mk.injEq] at h
      obtain ⟨rfl, rfl⟩ := h
      exact ⟨ext_append_inputs _ _, fun _ _ _ => trivial⟩
  · simp only [Except.ok.injEq, Prod.mk.injEq] at h
    obtain ⟨rfl, rfl⟩ := h
    exact ⟨ext_append_inputs _ _, fun _ _ _ => trivial⟩

theorem Snd.enforce (a b c : LC F) :
    Snd (enforce a b c) (fun w _ => a.eval w * b.eval w = c.eval w) := by
  intro cs u cs' h
  unfold Zkp.enforce at h
  simp only [Except.ok.injEq, Prod.mk.injEq] at h
  obtain ⟨_, rfl⟩ := h
  exact ⟨ext_append_constraint _ _, fun w _ hs => hs ⟨a, b, c⟩ (by simp)⟩

theorem Snd.isProving : Snd (isProving : Synth F Bool) (fun _ _ => True) := by
  intro cs u cs' h
  unfold Zkp.isProving at h
  simp only [Except.ok.injEq, Prod.mk.injEq] at h
  obtain ⟨_, rfl⟩ := h
  exact ⟨CS.Ext.refl _, fun _ _ _ => trivial⟩

theorem Snd.fail {α : Type} (e : SynthesisError) (P : (Index → F) → α → Prop) :
    Snd (failS e) P := by
  intro cs u cs' h
  simp [failS] at h

theorem Snd.panic {α : Type} (P : (Index → F) → α → Prop) : Snd (panicS : Synth F α) P := by
  intro cs u cs' h
  simp [panicS] at h

/-! ### Completeness triples -/

/-- Completeness triple: from the good proving state `cs`, `m` succeeds, only appends, stays good,
and `Q` holds of the result and the new state. -/
def Cmp {α : Type} (cs : CS F) (m : Synth F α) (Q : α → CS F → Prop) : Prop :=
  cs.Good → ∃ a cs', m cs = .ok (a, cs') ∧ cs.Ext cs' ∧ cs'.Good ∧ Q a cs'

theorem Cmp.bind {α β : Type} {cs : CS F} {m : Synth F α} {f : α → Synth F β}
    {P : α → CS F → Prop} {Q : β → CS F → Prop} (hm : Cmp cs m P)
    (hf : ∀ a cs', cs.Ext cs' → P a cs' → Cmp cs' (f a) Q) : Cmp cs (m >>= f) Q := by
  intro hg
  obtain ⟨a, cs', h1, e1, g1, p1⟩ := hm hg
  obtain ⟨b, cs'', h2, e2, g2, p2⟩ := hf a cs' e1 p1 g1
  exact ⟨b, cs'', Synth.bind_ok.mpr ⟨a, cs', h1, h2⟩, e1.trans e2, g2, p2⟩

theorem Cmp.pure {α : Type} {cs : CS F} {a : α} {Q : α → CS F → Prop} (h : Q a cs) :
    Cmp cs (Pure.pure a : Synth F α) Q :=
  fun hg => ⟨a, cs, rfl, CS.Ext.refl _, hg, h⟩

theorem Cmp.weaken {α : Type} {cs : CS F} {m : Synth F α} {P Q : α → CS F → Prop}
    (hm : Cmp cs m P) (h : ∀ a cs', cs.Ext cs' → P a cs' → Q a cs') : Cmp cs m Q := by
  intro hg
  obtain ⟨a, cs', h1, e1, g1, p1⟩ := hm hg
  exact ⟨a, cs', h1, e1, g1, h a cs' e1 p1⟩

theorem Cmp.map {α β : Type} {cs : CS F} {m : Synth F α} {f : α → β}
    {P : α → CS F → Prop} {Q : β → CS F → Prop} (hm : Cmp cs m P)
    (h : ∀ a cs', cs.Ext cs' → P a cs' → Q (f a) cs') :
    Cmp cs (m >>= fun a => Pure.pure (f a)) Q :=
  hm.bind fun a cs' e p => Cmp.pure (h a cs' e p)

theorem Cmp.alloc {cs : CS F} {f : Except SynthesisError F} {v : F} (hf : f = .ok v) :
    Cmp cs (alloc f) (fun a cs' => ∀ w : Index → F, cs'.Agrees w → w a = v) := by
  intro hg
  subst hf
  refine ⟨.aux cs.aux.length, { cs with aux := cs.aux ++ [v] }, ?_, ext_append_aux _ _, ?_, ?_⟩
  · simp [Zkp.alloc, hg.proving]
  · exact ⟨hg.proving, hg.one, fun w hw => hg.valid w ((ext_append_aux _ _).agrees hw)⟩
  · intro w hw
    exact hw.2 cs.aux.length v (by simp)

theorem Cmp.allocInput {cs : CS F} {f : Except SynthesisError F} {v : F} (hf : f = .ok v) :
    Cmp cs (allocInput f) (fun a cs' => ∀ w : Index → F, cs'.Agrees w → w a = v) := by
  intro hg
  subst hf
  have hne : 0 < cs.inputs.length := by
    rcases Nat.eq_zero_or_pos cs.inputs.length with h | h
    · have := hg.one; simp [List.eq_nil_of_length_eq_zero h] at this
    · exact h
  refine ⟨.input cs.inputs.length, { cs with inputs := cs.inputs ++ [v] }, ?_,
    ext_append_inputs _ _, ?_, ?_⟩
  · simp [Zkp.allocInput, hg.proving]
  · exact ⟨hg.proving, prefix_getElem? (ext_append_inputs cs v).inputs hg.one,
      fun w hw => hg.valid w ((ext_append_inputs _ _).agrees hw)⟩
  · intro w hw
    exact hw.1 cs.inputs.length v (by simp)

theorem CS.Good.one_eq {cs : CS F} (hg : cs.Good) {w : Index → F} (hw : cs.Agrees w) :
    w .one = 1 := hw.1 0 1 hg.one

theorem Cmp.enforce {cs : CS F} {a b c : LC F}
    (h : ∀ w : Index → F, w .one = 1 → cs.Agrees w → a.eval w * b.eval w = c.eval w) :
    Cmp cs (enforce a b c) (fun _ _ => True) := by
  intro hg
  refine ⟨(), { cs with constraints := cs.constraints ++ [⟨a, b, c⟩] }, rfl,
    ext_append_constraint _ _, ⟨hg.proving, hg.one, ?_⟩, trivial⟩
  intro w hw k hk
  have hw' : cs.Agrees w := hw
  simp only [List.mem_append, List.mem_singleton] at hk
  rcases hk with hk | rfl
  · exact hg.valid w hw' k hk
  · exact h w (hg.one_eq hw') hw'

theorem Cmp.isProving {cs : CS F} :
    Cmp cs (isProving : Synth F Bool) (fun b _ => b = true) := fun hg =>
  ⟨cs.proving, cs, rfl, CS.Ext.refl _, hg, hg.proving⟩

theorem CS.good_new : (CS.new true : CS F).Good :=
  ⟨rfl, rfl, fun w _ k hk => by simp [CS.new] at hk⟩

end Zkp
