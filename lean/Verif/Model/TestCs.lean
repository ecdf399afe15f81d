/- Model of /repo/gadgets/src/test_constraint_system.rs, the constraint system that the gadget tests and the doctests use.
Not modelled: `pretty_print` (lines 151-212).

Names and paths are lists of characters. The hash map from paths to objects is a list of pairs; keys are never replaced or
removed. `none` and `Res.panic` are Rust panics. -/
import Verif.Model.Cs
import Mathlib.Algebra.Field.Defs

namespace Zkp.TestCs

abbrev Name := List Char

/-- test_constraint_system.rs:13-17 `NamedObject`. -/
inductive NamedObject where
  | constraint (i : Nat)
  | var (v : Index)
  | namespace_
deriving DecidableEq

/-- test_constraint_system.rs:20-31 `TestConstraintSystem`. -/
structure State (F : Type) where
  named : List (Name × NamedObject)
  current : List Name
  constraints : List (R1C F × Name)
  inputs : List (F × Name)
  aux : List (F × Name)

/-- The outcome of an operation that changes the state: `Ok`, `Err` (with the state it leaves behind) or a panic, as in
test_constraint_system.rs:347-375. -/
inductive Res (F α : Type) where
  | ok (a : α) (s : State F)
  | err (e : SynthesisError) (s : State F)
  | panic

variable {F : Type} [Field F]

/-- test_constraint_system.rs:135-149 `new`. -/
def new : State F := ⟨[("ONE".toList, .var .one)], [], [], [(1, "ONE".toList)], []⟩

/-- test_constraint_system.rs:315-321 `set_named_obj`. -/
def setNamed (s : State F) (path : Name) (obj : NamedObject) : Option (State F) :=
  if (s.named.lookup path).isSome then none else some { s with named := (path, obj) :: s.named }

/-- test_constraint_system.rs:324-342 `compute_path`. -/
def computePath (ns : List Name) (this : Name) : Option Name :=
  if '/' ∈ this then none else some (['/'].intercalate (ns ++ [this]))

/-- test_constraint_system.rs:347-360 `alloc`. -/
def alloc (name : Name) (f : Except SynthesisError F) (s : State F) : Res F Index :=
  let index := s.aux.length
  match computePath s.current name with
  | none => .panic
  | some path =>
    match f with
    | .error e => .err e s
    | .ok v =>
      match setNamed { s with aux := s.aux ++ [(v, path)] } path (.var (.aux index)) with
      | none => .panic
      | some s' => .ok (.aux index) s'

/-- test_constraint_system.rs:362-375 `alloc_input`. -/
def allocInput (name : Name) (f : Except SynthesisError F) (s : State F) : Res F Index :=
  let index := s.inputs.length
  match computePath s.current name with
  | none => .panic
  | some path =>
    match f with
    | .error e => .err e s
    | .ok v =>
      match setNamed { s with inputs := s.inputs ++ [(v, path)] } path (.var (.input index)) with
      | none => .panic
      | some s' => .ok (.input index) s'

/-- test_constraint_system.rs:377-394 `enforce`; the combinations are the results of the closures. -/
def enforce (name : Name) (a b c : LC F) (s : State F) : Option (State F) := do
  let path ← computePath s.current name
  let s ← setNamed s path (.constraint s.constraints.length)
  pure { s with constraints := s.constraints ++ [(⟨a, b, c⟩, path)] }

/-- test_constraint_system.rs:396-405 `push_namespace`. -/
def pushNamespace (name : Name) (s : State F) : Option (State F) := do
  let path ← computePath s.current name
  let s ← setNamed s path .namespace_
  pure { s with current := s.current ++ [name] }

/-- test_constraint_system.rs:407-409 `pop_namespace`. -/
def popNamespace (s : State F) : Option (State F) :=
  if s.current = [] then none else some { s with current := s.current.dropLast }

/-- The value of a variable, `inputs[index].0` or `aux[index].0` (test_constraint_system.rs:121-124). -/
def value (s : State F) : Index → Option F
  | .input i => (s.inputs[i]?).map Prod.fst
  | .aux i => (s.aux[i]?).map Prod.fst

/-- test_constraint_system.rs:113-131 `eval_lc`. -/
def evalLc (s : State F) (l : LC F) : Option F :=
  l.foldlM (fun acc t => (value s t.1).map fun x => acc + x * t.2) 0

/-- test_constraint_system.rs:239-253 `which_is_unsatisfied`: the loop. -/
def firstUnsatisfied [DecidableEq F] (s : State F) : List (R1C F × Name) → Option (Option Name)
  | [] => some none
  | (k, path) :: rest => do
    let a ← evalLc s k.a
    let b ← evalLc s k.b
    let c ← evalLc s k.c
    if a * b ≠ c then some (some path) else firstUnsatisfied s rest

/-- test_constraint_system.rs:239-253 `which_is_unsatisfied`. -/
def whichIsUnsatisfied [DecidableEq F] (s : State F) : Option (Option Name) := firstUnsatisfied s s.constraints

/-- test_constraint_system.rs:255-257 `is_satisfied`. -/
def isSatisfied [DecidableEq F] (s : State F) : Option Bool := (whichIsUnsatisfied s).map (·.isNone)

/-- test_constraint_system.rs:263-275 `set`. -/
def set (s : State F) (path : Name) (val : F) : Option (State F) :=
  match s.named.lookup path with
  | some (.var (.input i)) => (s.inputs[i]?).map fun x => { s with inputs := s.inputs.set i (val, x.2) }
  | some (.var (.aux i)) => (s.aux[i]?).map fun x => { s with aux := s.aux.set i (val, x.2) }
  | _ => none

/-- test_constraint_system.rs:277-287 `verify`. -/
def verify [DecidableEq F] (s : State F) (expected : List F) : Option Bool :=
  if expected.length + 1 = s.inputs.length then
    some (((s.inputs.drop 1).zip expected).all fun p => p.1.1 = p.2)
  else none

/-- test_constraint_system.rs:293-299 `get_input`. -/
def getInput (s : State F) (index : Nat) (path : Name) : Option F := do
  let x ← s.inputs[index]?
  if path = x.2 then some x.1 else none

/-- test_constraint_system.rs:301-313 `get`. -/
def get (s : State F) (path : Name) : Option F :=
  match s.named.lookup path with
  | some (.var v) => value s v
  | _ => none

/-! ### The hash of a system -/

/-- test_constraint_system.rs:63-84 `proc_lc`: the map entry; 51-60 `Ord` of the keys is the order of the indices. -/
def entryAdd (v : Index) (x : F) : List (Index × F) → List (Index × F)
  | [] => [(v, 0 + x)]
  | (v', x') :: m =>
    match v.cmp v' with
    | .lt => (v, 0 + x) :: (v', x') :: m
    | .eq => (v', x' + x) :: m
    | .gt => (v', x') :: entryAdd v x m

/-- test_constraint_system.rs:63-84 `proc_lc`: coefficients summed and zeros removed. -/
def procLc [DecidableEq F] (terms : LC F) : List (Index × F) :=
  (terms.foldl (fun m t => entryAdd t.1 t.2 m) []).filter fun e => e.2 ≠ 0

/-- `BigEndian::write_u64` (test_constraint_system.rs:91). -/
def be8 (n : Nat) : List UInt8 := (leBytes 8 n).reverse

/-- test_constraint_system.rs:94-108: one term in a buffer of 41 bytes; `repr` is the little-endian encoding of the field
element. -/
def termBytes (repr : F → List UInt8) (e : Index × F) : Option (List UInt8) :=
  if (repr e.2).length ≤ 32 then
    some ((match e.1 with
      | .input i => 73 :: be8 i
      | .aux i => 65 :: be8 i) ++ repr e.2 ++ List.replicate (32 - (repr e.2).length) 0)
  else none

/-- test_constraint_system.rs:87-110 `hash_lc`. -/
def lcBytes [DecidableEq F] (repr : F → List UInt8) (terms : LC F) : Option (List UInt8) := do
  let m := procLc terms
  let ts ← m.mapM (termBytes repr)
  pure (be8 m.length ++ ts.flatten)

/-- test_constraint_system.rs:225-229: one constraint. -/
def constraintBytes [DecidableEq F] (repr : F → List UInt8) (k : R1C F × Name) : Option (List UInt8) := do
  let a ← lcBytes repr k.1.a
  let b ← lcBytes repr k.1.b
  let c ← lcBytes repr k.1.c
  pure (a ++ b ++ c)

/-- test_constraint_system.rs:214-237 `hash`: the bytes given to BLAKE2s. -/
def hashBytes [DecidableEq F] (repr : F → List UInt8) (s : State F) : Option (List UInt8) := do
  let ks ← s.constraints.mapM (constraintBytes repr)
  pure (be8 s.inputs.length ++ be8 s.aux.length ++ be8 s.constraints.length ++ ks.flatten)

end Zkp.TestCs
