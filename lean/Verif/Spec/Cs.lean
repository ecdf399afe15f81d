/-
Specification vocabulary for circuits: what it means for an assignment to satisfy a constraint
system, and which bit / 32-bit word a circuit value denotes under an assignment.  Nothing here
refers to how the gadgets are written.
-/
import Verif.Spec.Lin
import Verif.Model.UInt32

namespace Zkp

variable {F : Type} [Field F]

/-- The constraint `a * b = c` holds under the assignment `w`. -/
def R1C.Holds (w : Index → F) (k : R1C F) : Prop := k.a.eval w * k.b.eval w = k.c.eval w

/-- `w` is a satisfying assignment of every constraint of `cs`.  (Any prover, honest or not, is
modelled by such a `w`.) -/
def CS.Sat (w : Index → F) (cs : CS F) : Prop := ∀ k ∈ cs.constraints, k.Holds w

/-- `w` gives the allocated variables exactly the values recorded during proving. -/
def CS.Agrees (w : Index → F) (cs : CS F) : Prop :=
  (∀ i v, cs.inputs[i]? = some v → w (.input i) = v) ∧
  (∀ i v, cs.aux[i]? = some v → w (.aux i) = v)

/-- The recorded values satisfy all constraints, whatever values later variables get. -/
def CS.Valid (cs : CS F) : Prop := ∀ w, cs.Agrees w → cs.Sat w

/-- A proving run in good standing: closures are evaluated, variable `Input(0)` is the constant one,
all constraints so far hold for the recorded values. -/
structure CS.Good (cs : CS F) : Prop where
  proving : cs.proving = true
  one : cs.inputs[0]? = some 1
  valid : cs.Valid

/-- `cs'` is `cs` with variables and constraints appended. -/
structure CS.Ext (cs cs' : CS F) : Prop where
  proving : cs'.proving = cs.proving
  inputs : cs.inputs <+: cs'.inputs
  aux : cs.aux <+: cs'.aux
  constraints : cs.constraints <+: cs'.constraints

/-- The field element a Boolean stands for. -/
def Boolean.val (w : Index → F) : Boolean → F
  | .is b => w b.variable_
  | .not_ b => 1 - w b.variable_
  | .constant c => if c then 1 else 0

/-- Under `w` the Boolean `b` represents the bit `x`. -/
def Boolean.Rep (w : Index → F) (b : Boolean) (x : Bool) : Prop := b.val w = if x then 1 else 0

/-- Under `w` the word `u` represents the 32-bit number `x`: it has 32 bits, and bit `i` (least
significant first) represents bit `i` of `x`. -/
def UInt32G.Rep (w : Index → F) (u : UInt32G) (x : BitVec 32) : Prop :=
  u.bits.length = 32 ∧ ∀ (i : Nat) (b : Boolean), u.bits[i]? = some b → b.Rep w (x.getLsbD i)

/-- If the Boolean is a constant, it is the constant `x`. -/
def Boolean.Compat (b : Boolean) (x : Bool) : Prop := ∀ c, b = .constant c → c = x

/-- The constant bits of the word agree with its cached value. -/
def UInt32G.Consistent (u : UInt32G) : Prop :=
  ∀ v, u.value = some v → ∀ (i : Nat) (b : Boolean), u.bits[i]? = some b → b.Compat (v.getLsbD i)

/-- Under `w` the word `u` denotes `x`: its bits represent `x`, and its cached value (if any) does
not contradict its constant bits.  This is the invariant all word gadgets preserve. -/
structure UInt32G.Denotes (w : Index → F) (u : UInt32G) (x : BitVec 32) : Prop where
  rep : u.Rep w x
  consistent : u.Consistent

/-- During a proving run: the Boolean carries the value `x`, and the recorded variable values make
it represent `x`. -/
def Boolean.Known (cs : CS F) (b : Boolean) (x : Bool) : Prop :=
  b.getValue = some x ∧ ∀ w : Index → F, cs.Agrees w → b.Rep w x

/-- During a proving run: the word carries the value `x`, and so do its bits. -/
def UInt32G.Known (cs : CS F) (u : UInt32G) (x : BitVec 32) : Prop :=
  u.value = some x ∧ u.bits.length = 32 ∧
    ∀ (i : Nat) (b : Boolean), u.bits[i]? = some b → b.Known cs (x.getLsbD i)

end Zkp
