/- A correspondence between random choices from its two halves. -/
import Mathlib.Logic.Equiv.Defs
import Mathlib.Logic.Equiv.Basic
import Mathlib.Logic.Function.Basic
import Mathlib.Tactic.Choose

namespace Zkp

/-- Two provers `P` and `P'` (choice, output) that can always give each other's outputs, each output by one choice only. -/
theorem choices_equiv {D B : Type} (P P' : D → B → Prop) (fwd : ∀ d, ∃ d' b, P d b ∧ P' d' b)
    (bwd : ∀ d', ∃ d b, P d b ∧ P' d' b) (fn : ∀ d b c, P d b → P d c → b = c) (fn' : ∀ d b c, P' d b → P' d c → b = c)
    (inj : ∀ d e b, P d b → P e b → d = e) (inj' : ∀ d e b, P' d b → P' e b → d = e) :
    ∃ f : D ≃ D, ∀ d, ∃ b, P d b ∧ P' (f d) b := by
  choose f g h1 h2 using fwd
  refine ⟨Equiv.ofBijective f ⟨fun d e he => ?_, fun d' => ?_⟩, fun d => ⟨g d, h1 d, h2 d⟩⟩
  · have := fn' _ _ _ (h2 d) (he ▸ h2 e)
    exact inj _ _ _ (h1 d) (this ▸ h1 e)
  · obtain ⟨d, b, a1, a2⟩ := bwd d'
    have := fn _ _ _ (h1 d) a1
    exact ⟨d, inj' _ _ _ (h2 d) (this ▸ a2)⟩

end Zkp
