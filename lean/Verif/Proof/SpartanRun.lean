/- Running verifier steps. -/
import Verif.Model.SpartanVerify

namespace Zkp.Spartan

variable {F : Type} [Field F] {G : Type} [AddCommGroup G] [Module F G]

/-- The step succeeds from every transcript, with a result that has property `P`. -/
def Succeeds {α : Type} (m : Vf F G α) (P : α → Prop) : Prop :=
  ∀ tr, ∃ a tr', m tr = .ok (a, tr') ∧ P a

theorem Succeeds.bind {α β : Type} {m : Vf F G α} {f : α → Vf F G β} {P : α → Prop} {Q : β → Prop}
    (h : Succeeds m P) (hf : ∀ a, P a → Succeeds (f a) Q) : Succeeds (m >>= f) Q := by
  intro tr
  obtain ⟨a, tr', h1, h2⟩ := h tr
  obtain ⟨b, tr'', h3, h4⟩ := hf a h2 tr'
  refine ⟨b, tr'', ?_, h4⟩
  show StateT.bind m f tr = _
  simp only [StateT.bind, h1]
  exact h3

theorem Succeeds.pure {α : Type} {a : α} {P : α → Prop} (h : P a) : Succeeds (Pure.pure a : Vf F G α) P :=
  fun tr => ⟨a, tr, rfl, h⟩

theorem Succeeds.say (m : Msg F G) : Succeeds (Spartan.say m) (fun _ => True) := fun _ => ⟨(), _, rfl, trivial⟩

theorem Succeeds.challenge (ch : Oracle F G) (l : String) : Succeeds (Spartan.challenge ch l) (fun _ => True) :=
  fun _ => ⟨_, _, rfl, trivial⟩

theorem Succeeds.challenges (ch : Oracle F G) (l : String) (n : Nat) :
    Succeeds (Spartan.challenges ch l n) (fun cs => cs.length = n) := by
  induction n with
  | zero => exact Succeeds.pure rfl
  | succ n ih =>
    exact (Succeeds.challenge ch l).bind fun c _ => ih.bind fun cs hcs => Succeeds.pure (by simp [hcs])

theorem Succeeds.ensure (s : Stop) {b : Bool} (h : b = true) :
    Succeeds (Spartan.ensure s b : Vf F G Unit) (fun _ => True) := by
  subst h; exact Succeeds.pure trivial

theorem Succeeds.orPanic {α : Type} {o : Option α} {a : α} (h : o = some a) :
    Succeeds (Spartan.orPanic o : Vf F G α) (fun x => x = a) := by
  subst h; exact Succeeds.pure rfl

/-- From the transcript `tr` the step succeeds, with a result and a transcript that have property `P`. -/
def Runs {α : Type} (m : Vf F G α) (tr : Transcript F G) (P : α → Transcript F G → Prop) : Prop :=
  ∃ a tr', m tr = .ok (a, tr') ∧ P a tr'

theorem Runs.bind {α β : Type} {m : Vf F G α} {f : α → Vf F G β} {tr : Transcript F G}
    {P : α → Transcript F G → Prop} {Q : β → Transcript F G → Prop}
    (h : Runs m tr P) (hf : ∀ a tr', P a tr' → Runs (f a) tr' Q) : Runs (m >>= f) tr Q := by
  obtain ⟨a, tr', h1, h2⟩ := h
  obtain ⟨b, tr'', h3, h4⟩ := hf a tr' h2
  refine ⟨b, tr'', ?_, h4⟩
  show StateT.bind m f tr = _
  simp only [StateT.bind, h1]
  exact h3

theorem Runs.mono {α : Type} {m : Vf F G α} {tr : Transcript F G} {P Q : α → Transcript F G → Prop}
    (h : Runs m tr P) (hf : ∀ a tr', P a tr' → Q a tr') : Runs m tr Q := by
  obtain ⟨a, tr', h1, h2⟩ := h
  exact ⟨a, tr', h1, hf a tr' h2⟩

theorem Runs.pure {α : Type} {a : α} {tr : Transcript F G} {P : α → Transcript F G → Prop} (h : P a tr) :
    Runs (Pure.pure a : Vf F G α) tr P := ⟨a, tr, rfl, h⟩

theorem Runs.say {m : Msg F G} {tr : Transcript F G} : Runs (Spartan.say m) tr (fun _ tr' => tr' = tr ++ [m]) :=
  ⟨(), _, rfl, rfl⟩

theorem Runs.challenge {ch : Oracle F G} {l : String} {tr : Transcript F G} :
    Runs (Spartan.challenge ch l) tr (fun r tr' => r = ch (tr ++ [.chal l]) ∧ tr' = tr ++ [.chal l]) :=
  ⟨_, _, rfl, rfl, rfl⟩

theorem Runs.ensure {s : Stop} {b : Bool} {tr : Transcript F G} (h : b = true) :
    Runs (Spartan.ensure s b : Vf F G Unit) tr (fun _ tr' => tr' = tr) := by
  subst h; exact Runs.pure rfl

theorem Runs.orPanic {α : Type} {o : Option α} {a : α} {tr : Transcript F G} (h : o = some a) :
    Runs (Spartan.orPanic o : Vf F G α) tr (fun x tr' => x = a ∧ tr' = tr) := by
  subst h; exact Runs.pure ⟨rfl, rfl⟩

end Zkp.Spartan
