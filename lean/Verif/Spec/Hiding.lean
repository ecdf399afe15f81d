/- Vocabulary for statements about hiding: challenges chosen beforehand, and a blinding generator that
hides. -/
import Verif.Model.Transcript
import Mathlib.Algebra.Module.Defs
import Mathlib.Algebra.Field.Defs

namespace Zkp.Cp

/-- The challenges do not depend on the messages, only on the position (an honest verifier chooses them
beforehand). -/
def Oblivious {F G : Type} (ch : Oracle F G) : Prop := ∀ t t' : Transcript F G, t.length = t'.length → ch t = ch t'

/-- The challenge at position `n`. -/
def chalAt {F G : Type} (ch : Oracle F G) (n : Nat) : F := ch (List.replicate n (.chal ""))

/-- `h` generates the group freely: every point is exactly one multiple of it. -/
def Spans (F : Type) {G : Type} [Field F] [AddCommGroup G] [Module F G] (h : G) : Prop :=
  ∀ p : G, ∃! k : F, p = k • h

end Zkp.Cp
