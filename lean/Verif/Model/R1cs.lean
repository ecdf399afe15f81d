/-
Model of the `zkp-r1cs` crate: variables, linear combinations, `ConstraintVar`, index
serialization.  Source: /repo/r1cs/src/lib.rs, impl_lc.rs, impl_constraint_var.rs.
-/
import Mathlib.Algebra.Field.Defs

namespace Zkp

/-- r1cs/src/lib.rs:64-71 `Index` (and `Variable(Index)`, lib.rs:43-62, a transparent wrapper).
`usize` is modelled by `Nat`; the encoder below is stated for values below `2^64`. -/
inductive Index where
  | input (i : Nat)
  | aux (i : Nat)
deriving DecidableEq, Repr

/-- r1cs/src/constraint_system.rs:15-18 `one()`: the variable `Input(0)`. -/
def Index.one : Index := .input 0

/-- r1cs/src/lib.rs:171-180 `impl Ord for Index`. -/
def Index.cmp : Index → Index → Ordering
  | .input i, .input j => compare i j
  | .aux i, .aux j => compare i j
  | .input _, .aux _ => .lt
  | .aux _, .input _ => .gt

/-! ### Index serialization -/

/-- Little-endian bytes of an integer (arkworks' `u8`/`usize` serialization writes the
`u64` little-endian encoding; external behaviour, see DESIGN.md). -/
def leBytes : Nat → Nat → List UInt8
  | 0, _ => []
  | n + 1, v => UInt8.ofNat (v % 256) :: leBytes n (v / 256)

/-- Inverse direction used by the arkworks integer deserializer: read `n` bytes or fail. r1cs/src/lib.rs:133-142. -/
def readLe : Nat → List UInt8 → Option (Nat × List UInt8)
  | 0, bs => some (0, bs)
  | _ + 1, [] => none
  | n + 1, b :: bs => match readLe n bs with
    | none => none
    | some (v, rest) => some (b.toNat + 256 * v, rest)

/-- r1cs/src/lib.rs:73-87 `serialize` (the uncompressed/unchecked variants 94-125 are identical):
tag byte 0/1 followed by the `usize` as 8 bytes. -/
def Index.serialize : Index → List UInt8
  | .input u => 0 :: leBytes 8 u
  | .aux u => 1 :: leBytes 8 u

/-- r1cs/src/lib.rs:89-92 `serialized_size`, 127-130 `uncompressed_size`: 1 + 8. -/
def Index.serializedSize (_ : Index) : Nat := 1 + 8

/-- r1cs/src/lib.rs:133-163 `deserialize` (all three variants identical): tag `0` gives `Input`,
*every other tag* gives `Aux`.  Returns the value and the unread bytes; `none` is the I/O error on
short input. -/
def Index.deserialize : List UInt8 → Option (Index × List UInt8)
  | [] => none
  | t :: bs => match readLe 8 bs with
    | none => none
    | some (u, rest) => if t = 0 then some (.input u, rest) else some (.aux u, rest)

/-! ### Linear combinations -/

/-- r1cs/src/lib.rs:186-187 `LinearCombination(pub SmallVec<(Variable, F)>)`. -/
abbrev LC (F : Type) := List (Index × F)

variable {F : Type} [Field F]

/-- r1cs/src/impl_lc.rs:28-33 `zero`. -/
def LC.zero : LC F := []

/-- r1cs/src/impl_lc.rs:14-19 `From<(F, Variable)>`. -/
def LC.ofTerm (c : F) (v : Index) : LC F := [(v, c)]

/-- r1cs/src/impl_lc.rs:21-26 `From<Variable>`. -/
def LC.ofVar (v : Index) : LC F := [(v, 1)]

/-- r1cs/src/impl_lc.rs:36-40 `replace_in_place`. -/
def LC.replace (_self other : LC F) : LC F := [] ++ other

/-- r1cs/src/impl_lc.rs:43-46 `negate_in_place`, 106-114 `Neg`. -/
def LC.neg (l : LC F) : LC F := l.map fun t => (t.1, -t.2)

/-- r1cs/src/impl_lc.rs:49-54 `double_in_place`. -/
def LC.double (l : LC F) : LC F := l.map fun t => (t.1, t.2 + t.2)

/-- r1cs/src/impl_lc.rs:116-131 `Mul<F>`, `MulAssign<F>`. -/
def LC.scale (l : LC F) (s : F) : LC F := l.map fun t => (t.1, t.2 * s)

/-- The linear scan of r1cs/src/impl_lc.rs:59-69: position of the first term whose variable is
`≥ v`, or the length.  (The code's counter `found_index` equals the number of skipped terms.) -/
def LC.scanLoc (v : Index) : LC F → Nat
  | [] => 0
  | t :: ts => if t.1.cmp v ≠ .lt then 0 else LC.scanLoc v ts + 1

/-- The Rust standard library's `binary_search_by` loop on `[left, right)`
(called from r1cs/src/impl_lc.rs:71-72): `.inl i` is `Ok(i)`, `.inr i` is `Err(i)`. -/
def LC.binSearch (l : LC F) (v : Index) (left right : Nat) (h : right ≤ l.length) : Nat ⊕ Nat :=
  if hlt : left < right then
    have hm : left + (right - left) / 2 < l.length := by omega
    match (l[left + (right - left) / 2]).1.cmp v with
    | .lt => LC.binSearch l v (left + (right - left) / 2 + 1) right h
    | .gt => LC.binSearch l v left (left + (right - left) / 2) (by omega)
    | .eq => .inl (left + (right - left) / 2)
  else .inr left
termination_by right - left

/-- r1cs/src/impl_lc.rs:56-74 `get_var_loc`: below six terms the scan always answers `Err`
(`.inr`), even when the variable is present; from six terms on, binary search. -/
def LC.getVarLoc (l : LC F) (v : Index) : Nat ⊕ Nat :=
  if l.length < 6 then .inr (LC.scanLoc v l)
  else LC.binSearch l v 0 l.length (Nat.le_refl _)

/-- r1cs/src/impl_lc.rs:87-95 `AddAssign<(F, Variable)>` and 77-85 `Add<(F, Variable)>`. -/
def LC.addTerm (l : LC F) (c : F) (v : Index) : LC F :=
  match l.getVarLoc v with
  | .inl i => l.modify i fun t => (t.1, t.2 + c)
  | .inr i => l.insertIdx i (v, c)

/-- r1cs/src/impl_lc.rs:97-104 `Sub<(F, Variable)>`. -/
def LC.subTerm (l : LC F) (c : F) (v : Index) : LC F := l.addTerm (-c) v

/-- r1cs/src/impl_lc.rs:133-140 `Add<Variable>`. -/
def LC.addVar (l : LC F) (v : Index) : LC F := l.addTerm 1 v

/-- r1cs/src/impl_lc.rs:142-149 `Sub<Variable>`. -/
def LC.subVar (l : LC F) (v : Index) : LC F := l.subTerm 1 v

/-- r1cs/src/impl_lc.rs:151-185 `op_impl`: merge of two term lists.  The two cursors `i`, `j` are
represented by the remaining suffixes. -/
def LC.opImpl (pushFn : F → F) (combineFn : F → F → F) : LC F → LC F → LC F
  | [], other => other.map fun t => (t.1, pushFn t.2)
  | cur, [] => cur
  | c :: cs, o :: os =>
    match c.1.cmp o.1 with
    | .gt => (o.1, pushFn o.2) :: LC.opImpl pushFn combineFn (c :: cs) os
    | .lt => c :: LC.opImpl pushFn combineFn cs (o :: os)
    | .eq => (c.1, combineFn c.2 o.2) :: LC.opImpl pushFn combineFn cs os
termination_by cur other => cur.length + other.length

/-- r1cs/src/impl_lc.rs:187-203, 223-257 `Add` (&/&, value/&, value/value): `other` tested first. -/
def LC.add (self other : LC F) : LC F :=
  if other.isEmpty then self
  else if self.isEmpty then other
  else LC.opImpl (fun c => c) (fun a b => a + b) self other

/-- r1cs/src/impl_lc.rs:205-221 `Add<LinearCombination> for &LinearCombination`: `self` tested
first. -/
def LC.addRefVal (self other : LC F) : LC F :=
  if self.isEmpty then other
  else if other.isEmpty then self
  else LC.opImpl (fun c => c) (fun a b => a + b) self other

/-- r1cs/src/impl_lc.rs:259-299, 321-338 `Sub` (&/&, value/&, value/value). -/
def LC.sub (self other : LC F) : LC F :=
  if other.isEmpty then self
  else if self.isEmpty then other.neg
  else LC.opImpl (fun c => -c) (fun a b => a - b) self other

/-- r1cs/src/impl_lc.rs:301-319 `Sub<LinearCombination> for &LinearCombination`. -/
def LC.subRefVal (self other : LC F) : LC F :=
  if self.isEmpty then other.neg
  else if other.isEmpty then self
  else LC.opImpl (fun c => -c) (fun a b => a - b) self other

/-- r1cs/src/impl_lc.rs:340-417 `Add<(F, LinearCombination)>` (four by-reference/by-value variants
with the same body). -/
def LC.addScaled (self : LC F) (k : F) (other : LC F) : LC F :=
  if other.isEmpty then self
  else if self.isEmpty then other.scale k
  else LC.opImpl (fun c => k * c) (fun a b => a + k * b) self other

/-- r1cs/src/impl_lc.rs:419-449 `Sub<(F, LinearCombination)>` (four variants). -/
def LC.subScaled (self : LC F) (k : F) (other : LC F) : LC F := self.addScaled (-k) other

/-! ### ConstraintVar -/

/-- r1cs/src/lib.rs:189-196 `ConstraintVar`. -/
inductive ConstraintVar (F : Type) where
  | lc (l : LC F)
  | var (v : Index)

namespace ConstraintVar

/-- impl_constraint_var.rs:48-50 `zero`. -/
def zero : ConstraintVar F := .lc LC.zero

/-- impl_constraint_var.rs:27-33 `From<(F, LinearCombination)>`. -/
def ofScaledLC (k : F) (l : LC F) : ConstraintVar F := .lc (l.scale k)

/-- impl_constraint_var.rs:13-18 `From<(F, Variable)>`. -/
def ofTerm (k : F) (v : Index) : ConstraintVar F := .lc (LC.ofTerm k v)

/-- impl_constraint_var.rs:35-43 `From<(F, ConstraintVar)>`. -/
def ofScaled (k : F) : ConstraintVar F → ConstraintVar F
  | .lc l => ofScaledLC k l
  | .var v => ofTerm k v

/-- impl_constraint_var.rs:53-58 `negate_in_place`, 142-150 `Neg`. -/
def neg : ConstraintVar F → ConstraintVar F
  | .lc l => .lc l.neg
  | .var v => ofTerm (-1) v

/-- impl_constraint_var.rs:61-66 `double_in_place`. -/
def double : ConstraintVar F → ConstraintVar F
  | .lc l => .lc l.double
  | .var v => ofTerm (1 + 1) v

/-- impl_constraint_var.rs:69-79, 94-104 `Add<LinearCombination>`. -/
def addLC : ConstraintVar F → LC F → LC F
  | .lc l, o => o.add l
  | .var v, o => o.addVar v

/-- impl_constraint_var.rs:81-92, 106-117 `Sub<LinearCombination>`. -/
def subLC : ConstraintVar F → LC F → LC F
  | .lc l, o => (o.sub l).neg
  | .var v, o => (o.subVar v).neg

/-- impl_constraint_var.rs:119-140 `Add<(F, Variable)>`, `AddAssign<(F, Variable)>`. -/
def addTerm : ConstraintVar F → F → Index → ConstraintVar F
  | .lc l, k, v => .lc (l.addTerm k v)
  | .var v2, k, v => .lc ((LC.ofVar v2).addTerm k v)

/-- impl_constraint_var.rs:174-181 `Sub<(F, Variable)>`. -/
def subTerm (x : ConstraintVar F) (k : F) (v : Index) : ConstraintVar F := x.addTerm (-k) v

/-- impl_constraint_var.rs:183-189 `Add<Variable>`. -/
def addVar (x : ConstraintVar F) (v : Index) : ConstraintVar F := x.addTerm 1 v

/-- impl_constraint_var.rs:191-198 `Sub<Variable>`. -/
def subVar (x : ConstraintVar F) (v : Index) : ConstraintVar F := x.subTerm 1 v

/-- impl_constraint_var.rs:152-172 `Mul<F>`, `MulAssign<F>`. -/
def scale : ConstraintVar F → F → ConstraintVar F
  | .lc l, s => .lc (l.scale s)
  | .var v, s => ofTerm s v

/-- The `match self` of impl_constraint_var.rs:205-208, 222-225 turning the left operand into a
combination. -/
def toLC : ConstraintVar F → LC F
  | .lc l => l
  | .var v => LC.ofVar v

/-- The `match self` of impl_constraint_var.rs:257-260, 275-278 (`LinearCombination::zero() + var`). -/
def toLC' : ConstraintVar F → LC F
  | .lc l => l
  | .var v => LC.zero.addVar v

/-- impl_constraint_var.rs:200-215 `Add<&Self>`. -/
def add (x y : ConstraintVar F) : ConstraintVar F :=
  match y with
  | .lc l2 => .lc (x.toLC.add l2)
  | .var v => .lc (x.toLC.addVar v)

/-- impl_constraint_var.rs:217-232 `Sub<&Self>`. -/
def sub (x y : ConstraintVar F) : ConstraintVar F :=
  match y with
  | .lc l2 => .lc (x.toLC.sub l2)
  | .var v => .lc (x.toLC.subVar v)

/-- impl_constraint_var.rs:234-241 `&x + &y`. -/
def addRef (x y : ConstraintVar F) : ConstraintVar F := (zero.add x).add y

/-- impl_constraint_var.rs:243-250 `&x - &y`. -/
def subRef (x y : ConstraintVar F) : ConstraintVar F := (zero.add x).sub y

/-- impl_constraint_var.rs:252-268 `Add<(F, &Self)>`. -/
def addScaled (x : ConstraintVar F) (k : F) (y : ConstraintVar F) : ConstraintVar F :=
  match y with
  | .lc l2 => .lc (x.toLC'.addScaled k l2)
  | .var v => .lc (x.toLC'.addTerm k v)

/-- impl_constraint_var.rs:270-285 `Sub<(F, &Self)>`. -/
def subScaled (x : ConstraintVar F) (k : F) (y : ConstraintVar F) : ConstraintVar F :=
  match y with
  | .lc l2 => .lc (x.toLC'.subScaled k l2)
  | .var v => .lc (x.toLC'.subTerm k v)

end ConstraintVar
end Zkp
