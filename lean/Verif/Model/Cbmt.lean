/- Models of /repo/gadgets/src/merkletree/cbmt.rs and cbmt_constraints.rs. -/
import Verif.Model.Cs

namespace Zkp.Cbmt

variable {T : Type}

/-- cbmt.rs:219-225 `sibling`. -/
def sibling (i : Nat) : Nat := if i = 0 then 0 else ((i + 1) ^^^ 1) - 1

/-- cbmt.rs:227-233 `parent`. -/
def parent (i : Nat) : Nat := if i = 0 then 0 else (i - 1) >>> 1

/-- cbmt.rs:235-237 `is_left`. -/
def isLeft (i : Nat) : Bool := i &&& 1 == 1

theorem parent_lt {i : Nat} (h : parent i ≠ 0) : parent i < i := by
  unfold parent at *
  split at h
  · exact absurd rfl h
  · rw [if_neg ‹_›, Nat.shiftRight_eq_div_pow]
    omega

/-- cbmt.rs:87-91 `MerkleProof`. -/
structure Proof (T : Type) where
  index : Nat
  lemmas : List T

/-- cbmt.rs:165-168: `rchunks_exact(2)` with the merge applied, on the *reversed* leaves. -/
def rchunks (merge : T → T → T) : List T → List T
  | leaf2 :: leaf1 :: rest => merge leaf1 leaf2 :: rchunks merge rest
  | _ => []

/-- cbmt.rs:169-171: the remainder of `rchunks_exact(2)`. -/
def remainder (leaves : List T) : List T := leaves.take (leaves.length % 2)

/-- cbmt.rs:173-179: the queue loop; `d` stands for the (unreachable) `unwrap` panic on an empty
queue. -/
def queueLoop (merge : T → T → T) (d : T) : List T → T
  | [] => d
  | [x] => x
  | right :: left :: rest => queueLoop merge d (rest ++ [merge left right])
termination_by q => q.length
decreasing_by simp

/-- cbmt.rs:158-180 `build_merkle_root`; `d` is `T::default()`. -/
def buildRoot (merge : T → T → T) (d : T) (leaves : List T) : T :=
  if leaves.isEmpty then d
  else queueLoop merge d (remainder leaves ++ rchunks merge leaves.reverse)

/-- The loop body of cbmt.rs:188-190. -/
def treeStep (merge : T → T → T) (d : T) (nodes : List T) (i : Nat) : List T :=
  nodes.set i (merge (nodes.getD (i <<< 1 + 1) d) (nodes.getD (i <<< 1 + 2) d))

/-- cbmt.rs:182-202 `build_merkle_tree`: the list of nodes, root first. -/
def buildTree (merge : T → T → T) (d : T) (leaves : List T) : List T :=
  if leaves.length > 0 then
    (List.range (leaves.length - 1)).reverse.foldl (treeStep merge d)
      (List.replicate (leaves.length - 1) d ++ leaves)
  else []

/-- cbmt.rs:74-80 `MerkleTree::root`. -/
def treeRoot (d : T) (nodes : List T) : T := nodes.headD d

/-- cbmt.rs:53-65: the loop collecting siblings; `none` is an index panic. -/
def lemmasFrom (nodes : List T) (i : Nat) : Option (List T) :=
  match nodes[sibling i]? with
  | none => none
  | some s =>
    if h : parent i ≠ 0 then (lemmasFrom nodes (parent i)).map (s :: ·) else some [s]
termination_by i
decreasing_by exact parent_lt h

/-- `u32` addition, subtraction: with overflow checks (debug profile; ckb-contracts/Cargo.toml:20,27)
`none` is the panic, without them (default release profile) the result wraps. -/
def addU32 (checked : Bool) (a b : Nat) : Option Nat :=
  if a + b < 2 ^ 32 then some (a + b) else if checked then none else some ((a + b) % 2 ^ 32)

/-- `u32` subtraction, see `addU32`; gadgets/src/merkletree/cbmt.rs:37-39. -/
def subU32 (checked : Bool) (a b : Nat) : Option Nat :=
  if b ≤ a then some (a - b) else if checked then none else some ((a + 2 ^ 32 - b) % 2 ^ 32)

/-- cbmt.rs:31-72 `build_proof`: outer `none` is a panic, inner `none` the returned `None`.  The
cast `as u32` truncates and `<<` drops the top bit without a panic. -/
def buildProof (checked : Bool) (nodes : List T) (leafIndex : Nat) : Option (Option (Proof T)) :=
  if nodes.isEmpty then some none
  else do
    let leavesCount := (nodes.length >>> 1 + 1) % 2 ^ 32
    let s ← addU32 checked leavesCount leafIndex
    let index ← subU32 checked s 1
    let bound ← subU32 checked ((leavesCount <<< 1) % 2 ^ 32) 1
    if index ≥ bound then return none
    else if index = 0 then return some ⟨index, []⟩
    else do
      let lemmas ← lemmasFrom nodes index
      return some ⟨index, lemmas⟩

/-- The loop body of cbmt.rs:115-126. -/
def rootStep (merge : T → T → T) (st : T × Nat) (sib : T) : T × Nat :=
  (if isLeft st.2 then merge st.1 sib else merge sib st.1, parent st.2)

/-- cbmt.rs:106-129 `MerkleProof::root`. -/
def Proof.root (merge : T → T → T) (π : Proof T) (leaf : T) : Option T :=
  if π.index = 0 ∧ π.lemmas.length ≠ 0 then none
  else some (π.lemmas.foldl (rootStep merge) (leaf, π.index)).1

/-- cbmt.rs:131-136 `verify`. -/
def Proof.verify [DecidableEq T] (merge : T → T → T) (π : Proof T) (root leaf : T) : Bool :=
  match π.root merge leaf with
  | some r => r == root
  | none => false

/-- cbmt.rs:204-206 `build_merkle_proof`. -/
def buildMerkleProof (merge : T → T → T) (d : T) (checked : Bool) (leaves : List T) (i : Nat) :
    Option (Option (Proof T)) := buildProof checked (buildTree merge d leaves) i

end Zkp.Cbmt

namespace Zkp.CbmtGadget

open Cbmt

variable {F : Type} [Field F] {O : Type}

/-- The instance data of `AbstractHash`/`AbstractHashOutput` (abstract_hash.rs:6-18) used by the
gadget: the variables and values of an output, and the enforcing hash. -/
structure HashI (F : Type) (O : Type) where
  vars : O → List Index
  vals : O → List (Option F)
  hashEnforce : List O → Synth F O

/-- cbmt_constraints.rs:63-79: `is_left * (parent - sibling) = input - sibling` per component, up to
the shorter of the two; an index panic if there are fewer inputs. -/
def selectConstraint (isLeftVar : Index) (ps ss inputs : List Index) (j : Nat) : Synth F Unit :=
  match inputs[j]? with
  | none => panicS
  | some v => enforce (LC.zero.addVar isLeftVar)
      ((LC.zero.addVar (ps.getD j .one)).subVar (ss.getD j .one))
      ((LC.zero.addVar v).subVar (ss.getD j .one))

/-- cbmt_constraints.rs:32-79: allocation of the (unused) selected input and its constraints. -/
def select (H : HashI F O) (st : O × Nat) (sib : O) : Synth F Unit := do
  let isLeftVar ← alloc (.ok (if isLeft st.2 then 1 else 0))
  let inputs ← (if isLeft st.2 then H.vals st.1 else H.vals sib).mapM fun v => alloc (okOr v)
  (List.range (min (H.vars st.1).length (H.vars sib).length)).forM
    (selectConstraint isLeftVar (H.vars st.1) (H.vars sib) inputs)

/-- One round of cbmt_constraints.rs:30-95. -/
def step (H : HashI F O) (st : O × Nat) (sib : O) : Synth F (O × Nat) := do
  select H st sib
  let p ← H.hashEnforce (if isLeft st.2 then [st.1, sib] else [sib, st.1])
  return (p, parent st.2)

/-- cbmt_constraints.rs:21-114 `set_membership`. -/
def setMembership (H : HashI F O) (index : Nat) (lemmas : List O) (root leaf : O) :
    Synth F Unit := do
  let st ← lemmas.foldlM (step H) (leaf, index)
  ((H.vars st.1).zip (H.vars root)).forM fun e =>
    enforce (LC.zero.addVar e.1) (LC.zero.addVar .one) (LC.zero.addVar e.2)

end Zkp.CbmtGadget
