/- Model of the Plonk circuit composer: /repo/plonk/src/composer/{mod,arithmetic,permutation,synthesize}.rs.

The external `GeneralEvaluationDomain::new` is the parameter `mk`.  Panics (index out of range, `unwrap` of
`None`) are reported as `none` or `.error .panic`. -/
import Verif.Model.Domain

namespace Zkp.Plonk

variable {F : Type} [Field F]

/-- composer/permutation.rs:12-18 `Wire`: `W0(row)` … `W3(row)`; the constructor number is `col`. -/
structure Wire where
  col : Fin 4
  row : Nat
deriving DecidableEq, Repr

/-- composer/mod.rs:17-40 `Composer`.  `variable_map` is the map of composer/permutation.rs:21-24: `alloc`
hands out the number of entries as the next key, so the keys are `0, …, len - 1` and the map is a list
indexed by the variable.  The same keys are used for `assignment` (composer/mod.rs:75-80). -/
structure Composer (F : Type) where
  n : Nat
  q_0 : List F
  q_1 : List F
  q_2 : List F
  q_3 : List F
  q_m : List F
  q_c : List F
  q_arith : List F
  pi : List F
  w_0 : List Nat
  w_1 : List Nat
  w_2 : List Nat
  w_3 : List Nat
  null_var : Nat
  variable_map : List (List Wire)
  assignment : List F

/-- composer/mod.rs:75-80 `alloc_and_assign` with composer/permutation.rs:34-39 `alloc`. -/
def Composer.allocAndAssign (c : Composer F) (value : F) : Composer F × Nat :=
  ({ c with variable_map := c.variable_map ++ [[]], assignment := c.assignment ++ [value] },
    c.variable_map.length)

/-- composer/mod.rs:43-69 `new`. -/
def Composer.new : Composer F :=
  let c : Composer F := ⟨0, [], [], [], [], [], [], [], [], [], [], [], [], 0, [], []⟩
  let r := c.allocAndAssign 0
  { r.1 with null_var := r.2 }

/-- composer/permutation.rs:55-58 `add_to_map`; the `unwrap` panics for an unknown variable. -/
def addToMap (m : List (List Wire)) (var : Nat) (wire : Wire) : Option (List (List Wire)) :=
  if var < m.length then some (m.modify var fun ws => ws ++ [wire]) else none

/-- composer/permutation.rs:41-53 `insert_gate`. -/
def insertGate (m : List (List Wire)) (w_0 w_1 w_2 w_3 : Nat) (index : Nat) :
    Option (List (List Wire)) := do
  let m ← addToMap m w_0 ⟨0, index⟩
  let m ← addToMap m w_1 ⟨1, index⟩
  let m ← addToMap m w_2 ⟨2, index⟩
  addToMap m w_3 ⟨3, index⟩

/-- composer/arithmetic.rs:20-23: a missing auxiliary wire is the null variable with coefficient zero. -/
def Composer.auxWire (c : Composer F) : Option (Nat × F) → Nat × F
  | some aux => aux
  | none => (c.null_var, 0)

/-- composer/arithmetic.rs:6-40 `create_poly_gate`. -/
def Composer.createPolyGate (c : Composer F) (l r o : Nat × F) (aux : Option (Nat × F))
    (q_m q_c pi : F) : Option (Composer F) := do
  let m ← insertGate c.variable_map (c.auxWire aux).1 l.1 r.1 o.1 c.n
  some { c with
    variable_map := m
    w_0 := c.w_0 ++ [(c.auxWire aux).1]
    w_1 := c.w_1 ++ [l.1]
    w_2 := c.w_2 ++ [r.1]
    w_3 := c.w_3 ++ [o.1]
    pi := c.pi ++ [pi]
    q_0 := c.q_0 ++ [(c.auxWire aux).2]
    q_1 := c.q_1 ++ [l.2]
    q_2 := c.q_2 ++ [r.2]
    q_3 := c.q_3 ++ [o.2]
    q_m := c.q_m ++ [q_m]
    q_c := c.q_c ++ [q_c]
    q_arith := c.q_arith ++ [1]
    n := c.n + 1 }

/-- composer/arithmetic.rs:42-53 `constrain_to_constant`. -/
def Composer.constrainToConstant (c : Composer F) (var : Nat) (value pi : F) : Option (Composer F) :=
  c.createPolyGate (var, 1) (var, 0) (var, 0) none 0 (-value) (-pi)

/-- composer/arithmetic.rs:55-66 `assert_equal`. -/
def Composer.assertEqual (c : Composer F) (l r : Nat) : Option (Composer F) :=
  c.createPolyGate (l, 1) (r, -1) (c.null_var, 0) none 0 0 0

/-- composer/arithmetic.rs:68-79 `create_add_gate`. -/
def Composer.createAddGate (c : Composer F) (l r : Nat × F) (o : Nat)
    (aux : Option (Nat × F)) (q_c pi : F) : Option (Composer F) :=
  c.createPolyGate l r (o, -1) aux 0 q_c pi

/-- composer/arithmetic.rs:81-102 `create_mul_gate`. -/
def Composer.createMulGate (c : Composer F) (l r o : Nat) (aux : Option (Nat × F))
    (q_m q_c pi : F) : Option (Composer F) :=
  c.createPolyGate (l, 0) (r, 0) (o, -1) aux q_m q_c pi

/-- A call of one of the composer's functions by the author of a circuit (`create_poly_gate` is private,
but the others are special cases of it). plonk/src/composer/mod.rs:75-85, arithmetic.rs:6-103. -/
inductive Op (F : Type) where
  | alloc (value : F)
  | poly (l r o : Nat × F) (aux : Option (Nat × F)) (q_m q_c pi : F)
  | const (var : Nat) (value pi : F)
  | eq (l r : Nat)
  | add (l r : Nat × F) (o : Nat) (aux : Option (Nat × F)) (q_c pi : F)
  | mul (l r o : Nat) (aux : Option (Nat × F)) (q_m q_c pi : F)

/-- The effect of one call. plonk/src/composer/mod.rs:75-85, arithmetic.rs:6-103. -/
def Composer.step (c : Composer F) : Op F → Option (Composer F)
  | .alloc value => some (c.allocAndAssign value).1
  | .poly l r o aux q_m q_c pi => c.createPolyGate l r o aux q_m q_c pi
  | .const var value pi => c.constrainToConstant var value pi
  | .eq l r => c.assertEqual l r
  | .add l r o aux q_c pi => c.createAddGate l r o aux q_c pi
  | .mul l r o aux q_m q_c pi => c.createMulGate l r o aux q_m q_c pi

/-- A circuit: the calls after `Composer::new()`, in order. plonk/src/composer/mod.rs:43-85. -/
def run (ops : List (Op F)) : Option (Composer F) := ops.foldlM Composer.step Composer.new

/-! ### The wiring permutation -/

/-- composer/permutation.rs:85-89: four tables, the entry of position `w` is where it is sent. -/
abbrev WireTable := Fin 4 → List Wire

/-- composer/permutation.rs:86-89: the identity. -/
def idTable (n : Nat) : WireTable := fun c => (List.range n).map fun i => ⟨c, i⟩

/-- composer/permutation.rs:103-108: `perm_c[i] = next`; panics out of range. -/
def WireTable.set (t : WireTable) (w next : Wire) : Option WireTable :=
  if w.row < (t w.col).length then
    some fun c => if c = w.col then (t c).set w.row next else t c
  else none

/-- composer/permutation.rs:97-101: the position before `curr`, cyclically. -/
def prevWire (wires : List Wire) (curr : Nat) : Option Wire :=
  wires[if curr = 0 then wires.length - 1 else curr - 1]?

/-- composer/permutation.rs:96-109: one step of the inner loop. -/
def linkOne (wires : List Wire) (t : WireTable) (p : Wire × Nat) : Option WireTable :=
  match prevWire wires p.2 with
  | some next => t.set p.1 next
  | none => none

/-- composer/permutation.rs:92-110: the wires of one variable. -/
def linkWires (t : WireTable) (wires : List Wire) : Option WireTable :=
  if wires.length ≤ 1 then some t else wires.zipIdx.foldlM (linkOne wires) t

/-- composer/permutation.rs:85-113 `compute_wire_permutation`.  `entries` are the values of the map in the
order of its iterator (any order, for the `HashMap` of the `std` build). -/
def computeWirePermutation (entries : List (List Wire)) (n : Nat) : Option WireTable :=
  entries.foldlM linkWires (idTable n)

/-- composer/permutation.rs:70-75: the field element of a position. -/
def wireElement (D : Domain F) (ks : Fin 4 → F) (w : Wire) : F := D.element w.row * ks w.col

/-! ### Synthesis -/

/-- composer/synthesize.rs:9-12 `Error`, and panics. -/
inductive CsError where
  | polynomialDegreeTooLarge
  | panic
deriving DecidableEq, Repr

/-- composer/synthesize.rs:14-28 `Selectors`. -/
structure Selectors (F : Type) where
  n : Nat
  q_0 : List F
  q_1 : List F
  q_2 : List F
  q_3 : List F
  q_m : List F
  q_c : List F
  q_arith : List F
  sigma_0 : List F
  sigma_1 : List F
  sigma_2 : List F
  sigma_3 : List F

/-- composer/synthesize.rs:30-35 `Witnesses`. -/
structure Witnesses (F : Type) where
  w_0 : List F
  w_1 : List F
  w_2 : List F
  w_3 : List F

/-- `GeneralEvaluationDomain::new(n).ok_or(Error::PolynomialDegreeTooLarge)?`.
plonk/src/composer/synthesize.rs:69-70, 111-112. -/
def domain (mk : Nat → Option (Domain F)) (n : Nat) : Except CsError (Domain F) :=
  match mk n with
  | some D => .ok D
  | none => .error .polynomialDegreeTooLarge

/-- Turn a panic into an error value. plonk/src/composer/permutation.rs:56. -/
def orPanic {α : Type} : Option α → Except CsError α
  | some a => .ok a
  | none => .error .panic

/-- composer/synthesize.rs:67-103 `compose`.  `order` is the order of the iterator over the variable map.
The padding appends `n - self.n` zeros; all vectors have length `self.n`.  (The subtraction cannot
underflow, as the domain has at least `self.n` elements; the assertions on the lengths hold.) -/
def Composer.compose (mk : Nat → Option (Domain F)) (order : List (List Wire) → List (List Wire))
    (c : Composer F) (ks : Fin 4 → F) : Except CsError (Selectors F) := do
  let D ← domain mk c.n
  let perms ← orPanic (computeWirePermutation (order c.variable_map) D.size)
  let pad : List F → List F := fun v => v ++ List.replicate (D.size - c.n) 0
  .ok {
    n := D.size
    q_0 := pad c.q_0
    q_1 := pad c.q_1
    q_2 := pad c.q_2
    q_3 := pad c.q_3
    q_m := pad c.q_m
    q_c := pad c.q_c
    q_arith := pad c.q_arith
    sigma_0 := (perms 0).map (wireElement D ks)
    sigma_1 := (perms 1).map (wireElement D ks)
    sigma_2 := (perms 2).map (wireElement D ks)
    sigma_3 := (perms 3).map (wireElement D ks) }

/-- composer/synthesize.rs:115-119: look up the values of a column; panics for an unknown variable. -/
def Composer.values (c : Composer F) (w : List Nat) : Option (List F) :=
  w.mapM fun v => c.assignment[v]?

/-- composer/synthesize.rs:109-132 `synthesize` (the padded public inputs computed there are not used). -/
def Composer.synthesize (mk : Nat → Option (Domain F)) (c : Composer F) : Except CsError (Witnesses F) := do
  let D ← domain mk c.n
  let w_0 ← orPanic (c.values c.w_0)
  let w_1 ← orPanic (c.values c.w_1)
  let w_2 ← orPanic (c.values c.w_2)
  let w_3 ← orPanic (c.values c.w_3)
  let zeros := List.replicate (D.size - c.n) 0
  .ok ⟨w_0 ++ zeros, w_1 ++ zeros, w_2 ++ zeros, w_3 ++ zeros⟩

end Zkp.Plonk
