/- Models of /repo/gadgets/src/algebra/fr.rs and /repo/gadgets/src/lookup/table.rs. -/
import Verif.Model.Boolean

namespace Zkp

variable {F : Type} [Field F]

/-- fr.rs:4-8 `AllocatedFr`. -/
structure AllocatedFr (F : Type) where
  value : Option F
  variable_ : Index

namespace AllocatedFr

/-- fr.rs:19-39 `alloc`: the cached value is set only if the closure is evaluated. -/
def alloc (f : Except SynthesisError F) : Synth F (AllocatedFr F) := do
  let pr ← isProving
  let var ← Zkp.alloc f
  return ⟨if pr then f.toOption else none, var⟩

/-- fr.rs:41-61 `alloc_input`. -/
def allocInput (f : Except SynthesisError F) : Synth F (AllocatedFr F) := do
  let pr ← isProving
  let var ← Zkp.allocInput f
  return ⟨if pr then f.toOption else none, var⟩

/-- fr.rs:63-80 `inputize`: `input * 1 = var`. -/
def inputize (a : AllocatedFr F) : Synth F Unit := do
  let input ← Zkp.allocInput (okOr a.value)
  enforce (LC.zero.addVar input) (LC.zero.addVar .one) (LC.zero.addVar a.variable_)

/-- fr.rs:82-109 `isnonzero`: `var * inv = 1`. -/
def isnonzero [DecidableEq F] (a : AllocatedFr F) : Synth F Unit := do
  let inv ← Zkp.alloc (match a.value with
    | none => .error .assignmentMissing
    | some t => if t = 0 then .error .divisionByZero else .ok t⁻¹)
  enforce (LC.zero.addVar a.variable_) (LC.zero.addVar inv) (LC.zero.addVar .one)

end AllocatedFr

namespace Lookup

/-- One iteration of table.rs:15-25: replace entry `i` by `constant - entry`, add the result to
every later entry `j` with `j & i == i`. -/
def synthStep (a : List F) (e : F × Nat) : List F :=
  let cur := -(a.getD e.2 0) + e.1
  a.mapIdx fun j x => if j = e.2 then cur else if e.2 < j ∧ j &&& e.2 = e.2 then x + cur else x

/-- table.rs:10-26 `synth` on a zero assignment of size `2^window` (all callers pass zeros); `none`
is the index panic when there are more constants than entries. -/
def synth (window : Nat) (constants : List F) : Option (List F) :=
  if constants.length ≤ 2 ^ window then
    some (constants.zipIdx.foldl synthStep (List.replicate (2 ^ window) 0))
  else none

/-- table.rs:30-74 `lookup1_x`. -/
def lookup1X (b : Boolean) (c : List F) : Synth F (AllocatedFr F) :=
  match c with
  | [c0, c1] =>
    match b with
    | .constant cond => if cond then AllocatedFr.alloc (.ok c1) else AllocatedFr.alloc (.ok c0)
    | b => do
      let t ← AllocatedFr.alloc (.ok c1)
      let f ← AllocatedFr.alloc (.ok c0)
      let result ← AllocatedFr.alloc (okOr (b.getValue.bind fun cond =>
        if cond then t.value else f.value))
      enforce (b.lc 1) ((LC.zero.addVar t.variable_).subVar f.variable_)
        ((LC.zero.addVar result.variable_).subVar f.variable_)
      return result
  | _ => panicS

/-- table.rs:90-102, 132-144: the index addressed by two bits. -/
def index2 (b0 b1 : Boolean) : Option Nat :=
  match b0.getValue, b1.getValue with
  | some a, some b => some ((if a then 1 else 0) + (if b then 2 else 0))
  | _, _ => none

/-- table.rs:184-204, 253-273: the index addressed by three bits. -/
def index3 (b0 b1 b2 : Boolean) : Option Nat :=
  match b0.getValue, b1.getValue, b2.getValue with
  | some a, some b, some c =>
    some ((if a then 1 else 0) + (if b then 2 else 0) + (if c then 4 else 0))
  | _, _, _ => none

/-- The value closures `Ok(c[i.ok_or(AssignmentMissing)?])`.
gadgets/src/lookup/table.rs:104, 146-149, 207, 276-281. -/
def entry (c : List F) (i : Option Nat) : Except SynthesisError F := (okOr i).map fun i => c.getD i 0

/-- The constraint of table.rs:108-113 (also 154-159 and 161-166). -/
def enforce2 (b0 b1 : Boolean) (c : List F) (res : Index) : Synth F Unit :=
  let c0 := c.getD 0 0; let c1 := c.getD 1 0; let c2 := c.getD 2 0; let c3 := c.getD 3 0
  enforce ((LC.zero.add (b1.lc (c3 - c2 - c1 + c0))).addTerm (c1 - c0) .one)
    (LC.zero.add (b0.lc 1))
    (((LC.zero.addVar res).addTerm (-c0) .one).add (b1.lc (c0 - c2)))

/-- table.rs:78-116 `lookup2_x`. -/
def lookup2X (b : List Boolean) (c : List F) : Synth F (AllocatedFr F) :=
  match b, c.length with
  | [b0, b1], 4 => do
    let res ← AllocatedFr.alloc (entry c (index2 b0 b1))
    enforce2 b0 b1 c res.variable_
    return res
  | _, _ => panicS

/-- table.rs:120-168 `lookup2_xy`. -/
def lookup2XY (b : List Boolean) (c : List (F × F)) : Synth F (AllocatedFr F × AllocatedFr F) :=
  match b, c.length with
  | [b0, b1], 4 => do
    let resX ← AllocatedFr.alloc (entry (c.map Prod.fst) (index2 b0 b1))
    let resY ← AllocatedFr.alloc (entry (c.map Prod.snd) (index2 b0 b1))
    enforce2 b0 b1 (c.map Prod.fst) resX.variable_
    enforce2 b0 b1 (c.map Prod.snd) resY.variable_
    return (resX, resY)
  | _, _ => panicS

/-- The constraint of table.rs:217-234 (also 294-311 and 313-330). -/
def enforce3 (b0 b1 b2 precomp : Boolean) (x : List F) (res : Index) : Synth F Unit :=
  enforce
    ((((LC.zero.addTerm (x.getD 1 0) .one).add (b1.lc (x.getD 3 0))).add (b2.lc (x.getD 5 0))).add
      (precomp.lc (x.getD 7 0)))
    (LC.zero.add (b0.lc 1))
    (((((LC.zero.addVar res).subTerm (x.getD 0 0) .one).sub (b1.lc (x.getD 2 0))).sub
      (b2.lc (x.getD 4 0))).sub (precomp.lc (x.getD 6 0)))

/-- table.rs:172-237 `lookup3_x`. -/
def lookup3X (b : List Boolean) (c : List F) : Synth F (AllocatedFr F) :=
  match b, c.length with
  | [b0, b1, b2], 8 => do
    let res ← AllocatedFr.alloc (entry c (index3 b0 b1 b2))
    match synth 3 c with
    | none => panicS
    | some x =>
      let precomp ← Boolean.and b1 b2
      enforce3 b0 b1 b2 precomp x res.variable_
      return res
  | _, _ => panicS

/-- table.rs:241-331 `lookup3_xy`. -/
def lookup3XY (b : List Boolean) (c : List (F × F)) : Synth F (AllocatedFr F × AllocatedFr F) :=
  match b, c.length with
  | [b0, b1, b2], 8 => do
    let resX ← AllocatedFr.alloc (entry (c.map Prod.fst) (index3 b0 b1 b2))
    let resY ← AllocatedFr.alloc (entry (c.map Prod.snd) (index3 b0 b1 b2))
    match synth 3 (c.map Prod.fst), synth 3 (c.map Prod.snd) with
    | some x, some y =>
      let precomp ← Boolean.and b1 b2
      enforce3 b0 b1 b2 precomp x resX.variable_
      enforce3 b0 b1 b2 precomp y resY.variable_
      return (resX, resY)
    | _, _ => panicS
  | _, _ => panicS

end Lookup
end Zkp
