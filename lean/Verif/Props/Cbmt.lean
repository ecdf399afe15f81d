/- C25–C28: complete binary Merkle trees. -/
import Verif.Proof.Cbmt
import Verif.Proof.RangeProof
import Verif.Props.Hashes

set_option linter.unusedSectionVars false
set_option linter.unusedSimpArgs false

namespace Zkp

open Cbmt

variable {T : Type}

/-! ### C25 – direct root and tree root -/

/-- The direct root is the root of the tree: all leaf lists, all merge functions. -/
theorem C25_root_agrees (merge : T → T → T) (d : T) (leaves : List T) :
    buildRoot merge d leaves = treeRoot d (buildTree merge d leaves) ∧
    buildRoot merge d [] = d := by
  refine ⟨?_, rfl⟩
  by_cases h : leaves = []
  · subst h; rfl
  · rw [buildRoot_eq merge d h (buildTree_isTree merge d h)]
    cases hb : buildTree merge d leaves <;> simp [treeRoot]

/-- What tree it is: the node list satisfies the heap equations and ends with the leaves. -/
theorem C25_tree_equations (merge : T → T → T) (d : T) (leaves : List T) (h : leaves ≠ []) :
    (buildTree merge d leaves).length = 2 * leaves.length - 1 ∧
    (∀ k, k < leaves.length - 1 → (buildTree merge d leaves).getD k d =
      merge ((buildTree merge d leaves).getD (2 * k + 1) d)
        ((buildTree merge d leaves).getD (2 * k + 2) d)) ∧
    (buildTree merge d leaves).drop (leaves.length - 1) = leaves := by
  have hl := buildTree_length merge d h
  have hp := List.length_pos_iff.mpr h
  obtain ⟨h1, h2⟩ := buildTree_isTree merge d h
  refine ⟨hl, h1, ?_⟩
  apply List.ext_getElem
  · simp; omega
  · intro i a b
    rw [List.getElem_drop, ← h2 i b, List.getD_eq_getElem]

/-- Concrete case with five leaves and a merge that records the tree shape. -/
example : buildRoot (fun a b => "(" ++ a ++ b ++ ")") "" ["a", "b", "c", "d", "e"] = "(((de)a)(bc))" ∧
    (["a", "b", "c", "d", "e"] : List String) ≠ [] := by
  constructor
  · rw [(C25_root_agrees _ _ _).1]; decide +kernel
  · simp

/-! ### C26 – produced proofs verify -/

/-- Every leaf position has a proof and it verifies (with and without overflow checks; the number
of leaves is limited by the 32-bit index arithmetic). -/
theorem C26_proof_verifies [DecidableEq T] (merge : T → T → T) (d : T) (leaves : List T)
    (hlen : leaves.length < 2 ^ 31) (checked : Bool) (i : Nat) (hi : i < leaves.length) :
    ∃ π, buildMerkleProof merge d checked leaves i = some (some π) ∧
      π.index = leaves.length - 1 + i ∧
      π.verify merge (treeRoot d (buildTree merge d leaves)) leaves[i] = true := by
  have h : leaves ≠ [] := by rintro rfl; simp at hi
  have ht := buildTree_isTree merge d h
  have hroot : treeRoot d (buildTree merge d leaves) = (buildTree merge d leaves).getD 0 d := by
    cases hb : buildTree merge d leaves <;> simp [treeRoot]
  unfold buildMerkleProof
  rw [buildProof_eq merge d h hlen checked i (by omega), if_neg (by omega)]
  by_cases h0 : leaves.length - 1 + i = 0
  · rw [if_pos h0]
    refine ⟨_, rfl, h0.symm, ?_⟩
    have := ht.leaf i hi
    simp only [h0] at this
    rw [hroot, this]
    simp [Proof.verify, Proof.root]
  · obtain ⟨ls, h1, h2, _⟩ := lemmas_spec merge ht (nodes_get merge d h) _ h0 (by omega)
    rw [if_neg h0, h1]
    refine ⟨_, rfl, rfl, ?_⟩
    rw [ht.leaf i hi] at h2
    unfold Proof.verify Proof.root
    rw [if_neg fun h => h0 h.1, hroot, h2]
    exact beq_self_eq_true _

/-- Positions outside the tree: with overflow checks no proof is ever produced (the result is `None`
or an overflow panic). -/
theorem C26_outside_checked (merge : T → T → T) (d : T) (leaves : List T)
    (hlen : leaves.length < 2 ^ 31) (i : Nat) (hi : leaves.length ≤ i) :
    buildMerkleProof merge d true leaves i = some none ∨
    buildMerkleProof merge d true leaves i = none := by
  by_cases h : leaves = []
  · subst h; exact .inl rfl
  by_cases hs : leaves.length + i < 2 ^ 32
  · left
    unfold buildMerkleProof
    rw [buildProof_eq merge d h hlen true i hs, if_pos hi]
  · right
    have hp := List.length_pos_iff.mpr h
    have hl := buildTree_length merge d h
    have hne : (buildTree merge d leaves).isEmpty = false := by
      cases hb : buildTree merge d leaves with
      | nil => rw [hb] at hl; simp at hl; omega
      | cons => rfl
    have e1 : ((buildTree merge d leaves).length >>> 1 + 1) % 2 ^ 32 = leaves.length := by
      rw [hl, Nat.shiftRight_eq_div_pow, pow_one]; omega
    unfold buildMerkleProof buildProof
    rw [hne, e1]
    have h3 : addU32 true leaves.length i = none := by
      unfold addU32; rw [if_neg hs]; rfl
    simp [h3]

/-- The full statement for a build with (`true`) or without (`false`) overflow checks. -/
def C26_statement (checked : Bool) : Prop :=
  ∀ (T : Type) (merge : T → T → T) (d : T) (leaves : List T), leaves.length < 2 ^ 31 →
    ∀ i < 2 ^ 32, (i < leaves.length ↔
      ∃ π, buildMerkleProof merge d checked leaves i = some (some π))

/-- C26 for builds with overflow checks. Partial: without them it fails (`C26_violated_unchecked`). -/
theorem C26_partial : C26_statement true := by
  classical
  intro T merge d leaves hlen i _
  constructor
  · intro h
    obtain ⟨π, h1, _⟩ := C26_proof_verifies merge d leaves hlen true i h
    exact ⟨π, h1⟩
  · rintro ⟨π, h⟩
    by_contra hn
    rcases C26_outside_checked merge d leaves hlen i (by omega) with h1 | h1 <;> rw [h1] at h <;>
      simp at h

/-- Violation without overflow checks (Rust's default release profile): position `2^32 - 1` in a
three-leaf tree yields a proof – of the inner node with index 1 – which verifies. -/
theorem C26_violated_unchecked : ¬ C26_statement false ∧
    ∃ π, buildMerkleProof (fun a b => a + 2 * b) 0 false [1, 2, 3] (2 ^ 32 - 1) = some (some π) ∧
      π.verify (fun a b => a + 2 * b)
        (treeRoot 0 (buildTree (fun a b => a + 2 * b) 0 [1, 2, 3])) 8 = true := by
  have h1 : (buildTree (fun a b => a + 2 * b) 0 [1, 2, 3]) = [10, 8, 1, 2, 3] := by decide
  have hp : buildMerkleProof (fun a b => a + 2 * b) 0 false [1, 2, 3] (2 ^ 32 - 1) =
      some (some ⟨1, [1]⟩) := by
    unfold buildMerkleProof
    rw [h1]
    have h2 : lemmasFrom [10, 8, 1, 2, 3] 1 = some [1] := by
      rw [lemmasFrom]; simp [sibling, parent]
    have h3 : addU32 false 3 (2 ^ 32 - 1) = some 2 := by norm_num [addU32]
    have h4 : subU32 false 2 1 = some 1 := by norm_num [subU32]
    have h5 : subU32 false 6 1 = some 5 := by norm_num [subU32]
    have h6 : ([10, 8, 1, 2, 3].length >>> 1 + 1) % 2 ^ 32 = 3 := rfl
    have h7 : (3 <<< 1) % 2 ^ 32 = 6 := rfl
    unfold buildProof
    rw [h6]
    simp only [h7, h3, h4, h5, bind, Option.bind, h2]
    rfl
  refine ⟨fun h => ?_, ⟨1, [1]⟩, hp, ?_⟩
  · have := (h Nat (fun a b => a + 2 * b) 0 [1, 2, 3] (by simp) (2 ^ 32 - 1) (by norm_num)).mpr
      ⟨_, hp⟩
    simp at this
  · rw [h1]; decide

/-- Without overflow checks, for every position outside the tree: nothing is returned up to `2^32 - n`, where `n` is the
number of leaves; from there on a proof of the inner node `n + i - 1 - 2^32`, and it verifies for that node. -/
theorem C26_unchecked [DecidableEq T] (merge : T → T → T) (d : T) (leaves : List T) (h : leaves ≠ [])
    (hlen : leaves.length < 2 ^ 31) (i : Nat) (hi : leaves.length ≤ i) (hi' : i < 2 ^ 32) :
    (leaves.length + i ≤ 2 ^ 32 → buildMerkleProof merge d false leaves i = some none) ∧
    (2 ^ 32 < leaves.length + i → leaves.length + i - 1 - 2 ^ 32 < leaves.length - 1 ∧
      ∃ π, buildMerkleProof merge d false leaves i = some (some π) ∧ π.index = leaves.length + i - 1 - 2 ^ 32 ∧
        π.verify merge (treeRoot d (buildTree merge d leaves))
          ((buildTree merge d leaves).getD (leaves.length + i - 1 - 2 ^ 32) d) = true) := by
  have hp := List.length_pos_iff.mpr h
  have hl := buildTree_length merge d h
  have hne : (buildTree merge d leaves).isEmpty = false := by
    cases hb : buildTree merge d leaves with
    | nil => rw [hb] at hl; simp at hl; omega
    | cons => rfl
  have e1 : ((buildTree merge d leaves).length >>> 1 + 1) % 2 ^ 32 = leaves.length := by
    rw [hl, Nat.shiftRight_eq_div_pow, pow_one]; omega
  have e2 : (leaves.length <<< 1) % 2 ^ 32 = 2 * leaves.length := by
    rw [Nat.shiftLeft_eq, pow_one]; omega
  have e4 : subU32 false (2 * leaves.length) 1 = some (2 * leaves.length - 1) := by
    unfold subU32; rw [if_pos (by omega)]
  constructor
  · intro hs
    by_cases hs' : leaves.length + i < 2 ^ 32
    · unfold buildMerkleProof
      rw [buildProof_eq merge d h hlen false i hs', if_pos hi]
    · have e3 : addU32 false leaves.length i = some 0 := by
        unfold addU32
        rw [if_neg hs', show leaves.length + i = 2 ^ 32 by omega, if_neg (by decide), Nat.mod_self]
      have e5 : subU32 false 0 1 = some (2 ^ 32 - 1) := by norm_num [subU32]
      unfold buildMerkleProof buildProof
      rw [hne, e1]
      simp only [e2, e3, e4, e5, Bool.false_eq_true, if_false, bind, Option.bind]
      rw [if_pos (by omega)]; rfl
  · intro hs
    obtain ⟨k, hk⟩ : ∃ k, leaves.length + i = 2 ^ 32 + (k + 1) := ⟨leaves.length + i - 2 ^ 32 - 1, by omega⟩
    have hidx : leaves.length + i - 1 - 2 ^ 32 = k := by omega
    have hk : k < leaves.length - 1 := by omega
    rw [hidx]
    refine ⟨hk, ?_⟩
    have e3 : addU32 false leaves.length i = some (k + 1) := by
      unfold addU32
      rw [if_neg (by omega), if_neg (by decide)]
      exact congrArg some (by omega)
    have e5 : subU32 false (k + 1) 1 = some k := by
      unfold subU32
      rw [if_pos (by omega), Nat.add_sub_cancel]
    unfold buildMerkleProof buildProof
    rw [hne, e1]
    simp only [e2, e3, e4, e5, Bool.false_eq_true, if_false, bind, Option.bind]
    have ht := buildTree_isTree merge d h
    have hroot : treeRoot d (buildTree merge d leaves) = (buildTree merge d leaves).getD 0 d := by
      cases hb : buildTree merge d leaves <;> simp [treeRoot]
    rw [if_neg (by omega)]
    by_cases h0 : k = 0
    · subst h0
      rw [if_pos rfl]
      refine ⟨_, rfl, rfl, ?_⟩
      rw [hroot]
      simp [Proof.verify, Proof.root]
    · obtain ⟨ls, h1, h2, _⟩ := lemmas_spec merge ht (nodes_get merge d h) k h0 (by omega)
      rw [if_neg h0, h1]
      refine ⟨_, rfl, rfl, ?_⟩
      unfold Proof.verify Proof.root
      rw [if_neg fun h => h0 h.1, hroot, h2]
      exact beq_self_eq_true _

/-- Three leaves: position `2^32 - 3` is refused, `2^32 - 2` gives a proof of the root itself. -/
example : buildMerkleProof (fun a b => a + 2 * b) 0 false [1, 2, 3] (2 ^ 32 - 3) = some none ∧
    ∃ π, buildMerkleProof (fun a b => a + 2 * b) 0 false [1, 2, 3] (2 ^ 32 - 2) = some (some π) ∧ π.index = 0 := by
  constructor
  · exact (C26_unchecked (fun a b => a + 2 * b) 0 [1, 2, 3] (by simp) (by simp) (2 ^ 32 - 3) (by simp) (by simp)).1 (by simp)
  · obtain ⟨-, π, h1, h2, -⟩ := (C26_unchecked (fun a b => a + 2 * b) 0 [1, 2, 3] (by simp) (by simp) (2 ^ 32 - 2) (by simp)
      (by simp)).2 (by simp)
    exact ⟨π, h1, h2⟩

/-- Concrete case: five leaves, position 3. -/
example : ([1, 2, 3, 4, 5] : List Nat).length < 2 ^ 31 ∧ 3 < ([1, 2, 3, 4, 5] : List Nat).length := by
  simp

/-! ### C27 – binding -/

/-- With an injective merge function every accepted proof at the position of leaf `i`, with as many
siblings as the genuine proof, is the genuine proof of the genuine leaf. -/
theorem C27_binding [DecidableEq T] (merge : T → T → T) (hinj : Function.Injective2 merge) (d : T)
    (leaves : List T) (hlen : leaves.length < 2 ^ 31) (checked : Bool) (i : Nat)
    (hi : i < leaves.length) (π₀ π : Proof T) (leaf : T)
    (h₀ : buildMerkleProof merge d checked leaves i = some (some π₀)) (hidx : π.index = π₀.index)
    (hlem : π.lemmas.length = π₀.lemmas.length)
    (hver : π.verify merge (treeRoot d (buildTree merge d leaves)) leaf = true) :
    leaf = leaves[i] ∧ π = π₀ := by
  obtain ⟨π', h1, _, h2⟩ := C26_proof_verifies merge d leaves hlen checked i hi
  rw [h₀, Option.some.injEq, Option.some.injEq] at h1
  subst h1
  unfold Proof.verify Proof.root at hver h2
  rw [hidx, hlem] at hver
  by_cases hc : π₀.index = 0 ∧ π₀.lemmas.length ≠ 0
  · rw [if_pos hc] at h2; simp at h2
  · rw [if_neg hc] at h2 hver
    simp only [beq_iff_eq] at h2 hver
    obtain ⟨a, b⟩ := root_inj hinj _ _ hlem _ _ _ (hver.trans h2.symm)
    refine ⟨a, ?_⟩
    cases π; cases π₀
    simp_all

/-- Two accepted proofs at the same position with the same number of siblings and against the same
root (no tree needed) prove the same leaf. -/
theorem C27_one_leaf [DecidableEq T] (merge : T → T → T) (hinj : Function.Injective2 merge)
    (root : T) (π π' : Proof T) (leaf leaf' : T) (hidx : π.index = π'.index)
    (hlem : π.lemmas.length = π'.lemmas.length) (h : π.verify merge root leaf = true)
    (h' : π'.verify merge root leaf' = true) : leaf = leaf' ∧ π.lemmas = π'.lemmas := by
  unfold Proof.verify Proof.root at h h'
  rw [hidx, hlem] at h
  by_cases hc : π'.index = 0 ∧ π'.lemmas.length ≠ 0
  · rw [if_pos hc] at h; simp at h
  · rw [if_neg hc] at h h'
    simp only [beq_iff_eq] at h h'
    exact root_inj hinj _ _ hlem _ _ _ (h.trans h'.symm)

/-- The number of siblings matters: `verify` does not check it against the position, and the tree
hash has no leaf/node separation, so the same position also "proves" an inner node as leaf. -/
theorem C27_length_needed [DecidableEq T] (merge : T → T → T) (a b c d : T) :
    let root := merge (merge a b) (merge c d)
    (Proof.mk 3 [b, merge c d]).verify merge root a = true ∧
    (Proof.mk 3 [merge c d]).verify merge root (merge a b) = true := by
  simp [Proof.verify, Proof.root, rootStep, isLeft, parent]

/-- Concrete case: an injective merge function on binary trees, three leaves. -/
example : Function.Injective2 (fun a b : List Bool => false :: (a.flatMap fun x => [x, x]) ++
    [true, false] ++ b) ∧ ([[true], [], [false]] : List (List Bool)).length < 2 ^ 31 := by
  refine ⟨?_, by simp⟩
  have key : ∀ a a' b b' : List Bool, (a.flatMap fun x => [x, x]) ++ [true, false] ++ b =
      (a'.flatMap fun x => [x, x]) ++ [true, false] ++ b' → a = a' ∧ b = b' := by
    intro a
    induction a with
    | nil =>
      intro a' b b' h
      cases a' with
      | nil => simpa using h
      | cons x a' => cases x <;> simp at h
    | cons x a ih =>
      intro a' b b' h
      cases a' with
      | nil => cases x <;> simp at h
      | cons x' a' =>
        simp only [List.flatMap_cons, List.cons_append, List.nil_append, List.cons.injEq] at h
        obtain ⟨h1, _, h3⟩ := h
        obtain ⟨h4, h5⟩ := ih a' b b' h3
        exact ⟨by rw [h1, h4], h5⟩
  intro a a' b b' h
  simp only [List.cons_append, List.cons.injEq, true_and] at h
  exact key a a' b b' h

/-! ### C28 – the membership circuit -/

section circuit

open CbmtGadget

variable {F : Type} [Field F]

/-- The value a hash path leads to: position `i` (heap numbering), start value, siblings. -/
def pathRoot (H : F → F → F) : Nat → F → List F → F
  | _, x, [] => x
  | i, x, s :: ss => pathRoot H ((i - 1) / 2) (if i % 2 = 1 then H x s else H s x) ss

/-- The gadget instance of a hash with one field element as output (mimc.rs:205-213 and alike). -/
def fieldHash (he : List (FieldOut F) → Synth F (FieldOut F)) : HashI F (FieldOut F) :=
  ⟨fun o => [o.variable_], fun o => [o.value], he⟩

/-- The property as stated, for the hash circuit `he`, with `H` the two-to-one hash: in every
satisfying assignment the path of the leaf leads to the root. -/
def C28_statement (he : List (FieldOut F) → Synth F (FieldOut F)) (H : F → F → F) : Prop :=
  ∀ (index : Nat) (lemmas : List (FieldOut F)) (root leaf : FieldOut F) (cs cs' : CS F),
    setMembership (fieldHash he) index lemmas root leaf cs = .ok ((), cs') →
    ∀ w : Index → F, w .one = 1 → cs'.Sat w →
      w root.variable_ = pathRoot H index (w leaf.variable_) (lemmas.map fun l => w l.variable_)

theorem select_cmp {cs : CS F} (he : List (FieldOut F) → Synth F (FieldOut F)) (i : Nat)
    (a b : FieldOut F) (x y : F) (ha : a.value = some x) (hb : b.value = some y)
    (hx : VarIs cs a.variable_ x) (hy : VarIs cs b.variable_ y) :
    Cmp cs (select (fieldHash he) (a, i) b) (fun _ _ => True) := by
  unfold select
  refine (Cmp.alloc' rfl).bind fun l cs1 e1 h1 => ?_
  cases hi : isLeft i
  · simp only [hi, fieldHash, Bool.false_eq_true, if_false, hb]
    rw [List.mapM_cons, List.mapM_nil]
    refine ((Cmp.alloc' (v := y) rfl).bind (Q := fun l cs => ∃ v, l = [v] ∧ VarIs cs v y)
      fun v cs2 e2 h2 => Cmp.pure ⟨v, rfl, h2⟩).bind fun ins cs2 e2 h2 => ?_
    obtain ⟨v, rfl, h2⟩ := h2
    refine (Cmp.enforce (cs := cs2) fun w ho hw => ?_).bind fun _ cs3 e3 _ => Cmp.pure trivial
    simp [hi] at h1
    simp [(h1.mono e2) w hw, h2 w hw, ((hy.mono e1).mono e2) w hw]
  · simp only [hi, fieldHash, if_true, ha]
    rw [List.mapM_cons, List.mapM_nil]
    refine ((Cmp.alloc' (v := x) rfl).bind (Q := fun l cs => ∃ v, l = [v] ∧ VarIs cs v x)
      fun v cs2 e2 h2 => Cmp.pure ⟨v, rfl, h2⟩).bind fun ins cs2 e2 h2 => ?_
    obtain ⟨v, rfl, h2⟩ := h2
    refine (Cmp.enforce (cs := cs2) fun w ho hw => ?_).bind fun _ cs3 e3 _ => Cmp.pure trivial
    simp [hi] at h1
    simp [(h1.mono e2) w hw, h2 w hw, ((hy.mono e1).mono e2) w hw, ((hx.mono e1).mono e2) w hw]

/-- Violation for every hash circuit that leaves its output free – MiMC, Rescue and Poseidon do
(`C19_*_output_free`): for *every* leaf, sibling, position and *every* public root there is a
satisfying assignment with exactly these values. -/
theorem C28_any_root_accepted (he : List (FieldOut F) → Synth F (FieldOut F)) (hfree : OutputFree he)
    (index : Nat) (r l s : F) :
    ∃ (root leaf sib : FieldOut F) (cs cs' : CS F), cs.Good ∧
      (root.value, leaf.value, sib.value) = (some r, some l, some s) ∧
      (∃ i, root.variable_ = .input i) ∧
      setMembership (fieldHash he) index [sib] root leaf cs = .ok ((), cs') ∧
      ∃ w : Index → F, w .one = 1 ∧ cs'.Sat w ∧ w root.variable_ = r ∧ w leaf.variable_ = l ∧
        w sib.variable_ = s := by
  let cs : CS F := ⟨true, [1, r], [l, s], []⟩
  have hg : cs.Good := ⟨rfl, rfl, fun w _ => by intro k hk; simp [cs] at hk⟩
  have hr : VarIs cs (.input 1) r := fun w hw => hw.1 1 r rfl
  have hl : VarIs cs (.aux 0) l := fun w hw => hw.2 0 l rfl
  have hs : VarIs cs (.aux 1) s := fun w hw => hw.2 1 s rfl
  obtain ⟨_, cs1, h1, e1, g1, _⟩ := select_cmp he index ⟨some l, .aux 0⟩ ⟨some s, .aux 1⟩ l s rfl rfl
    hl hs hg
  obtain ⟨out, cs2, h2, hx⟩ := hfree
    (if isLeft index then [⟨some l, .aux 0⟩, ⟨some s, .aux 1⟩]
      else [⟨some s, .aux 1⟩, ⟨some l, .aux 0⟩]) (if isLeft index then [l, s] else [s, l])
    (by split <;> simp) (by split <;> simp) cs1 g1
  obtain ⟨w, ho, hsat, hag, hw⟩ := hx r
  refine ⟨⟨some r, .input 1⟩, ⟨some l, .aux 0⟩, ⟨some s, .aux 1⟩, cs, { cs2 with
    constraints := cs2.constraints ++ [⟨LC.zero.addVar out.variable_, LC.zero.addVar .one,
      LC.zero.addVar (.input 1)⟩] }, hg, rfl, ⟨1, rfl⟩, ?_, w, ho, ?_, hr w (e1.agrees hag),
    hl w (e1.agrees hag), hs w (e1.agrees hag)⟩
  · simp only [setMembership, List.foldlM_cons, List.foldlM_nil, step, bind, StateT.bind,
      Except.bind, h1, pure, StateT.pure, Except.pure]
    simp only [fieldHash, h2]
    rfl
  · intro k hk
    simp only [List.mem_append, List.mem_singleton] at hk
    rcases hk with hk | rfl
    · exact hsat k hk
    · simp [R1C.Holds, ho, hw, hr w (e1.agrees hag)]

/-- Hence the property fails for such hashes, whatever two-to-one function is meant. -/
theorem C28_violated (he : List (FieldOut F) → Synth F (FieldOut F)) (hfree : OutputFree he)
    (H : F → F → F) : ¬ C28_statement he H := by
  intro h
  obtain ⟨root, leaf, sib, cs, cs', _, _, _, hrun, w, ho, hs, h1, h2, h3⟩ :=
    C28_any_root_accepted he hfree 1 (H 0 0 + 1) 0 0
  have := h 1 [sib] root leaf cs cs' hrun w ho hs
  simp [pathRoot, h1, h2, h3] at this

/-- The three field hashes of the repository. -/
theorem C28_violated_hashes (p n : Nat) [Fact p.Prime] (hn : 0 < n) (k : List (ZMod p))
    (rc ark mds : List (List (ZMod p))) (hr : Shape 45 rc mds) (ha : Shape 91 ark mds)
    (H : ZMod p → ZMod p → ZMod p) :
    ¬ C28_statement (Mimc.hashEnforce n k) H ∧ ¬ C28_statement (Rescue.hashEnforce n rc mds) H ∧
    ¬ C28_statement (Poseidon.hashEnforce n ark mds) H :=
  ⟨C28_violated _ (C19_mimc_output_free p n hn k) H,
    C28_violated _ (C19_rescue_output_free p n hn rc mds hr) H,
    C28_violated _ (C19_poseidon_output_free p n hn ark mds ha) H⟩

theorem select_snd (H : HashI F (FieldOut F)) (st : FieldOut F × Nat) (sib : FieldOut F) :
    Snd (select H st sib) (fun _ _ => True) := by
  unfold select
  refine (Snd.alloc _).bind fun l => ((Snd.mapM (R := fun _ _ _ => True)
    (fun i => Snd.alloc _) _)).bind fun ins => (Snd.forM (R := fun _ _ => True) (fun j => ?_) _).weaken
    fun _ _ _ _ _ _ => trivial
  unfold selectConstraint
  split
  · exact Snd.panic _
  · exact (Snd.enforce _ _ _).weaken fun _ _ _ _ => trivial

/-- What holds (`_partial`; missing: the hashes of the repository do not bind their output): with a
hash circuit that does bind its output to a function of its input variables, the circuit proves
membership for every depth. -/
theorem C28_binding_hash_partial (he : List (FieldOut F) → Synth F (FieldOut F)) (H : F → F → F)
    (hbind : ∀ a b, Snd (he [a, b]) (fun w out => w out.variable_ = H (w a.variable_) (w b.variable_))) :
    C28_statement he H := by
  intro index lemmas root leaf cs cs' hrun w ho hs
  have key : ∀ (lemmas : List (FieldOut F)) (i : Nat) (leaf : FieldOut F),
      Snd (lemmas.foldlM (step (fieldHash he)) (leaf, i)) (fun w st => w st.1.variable_ =
        pathRoot H i (w leaf.variable_) (lemmas.map fun l => w l.variable_)) := by
    intro lemmas
    induction lemmas with
    | nil => intro i leaf; exact Snd.pure fun w _ => rfl
    | cons s ss ih =>
      intro i leaf
      rw [List.foldlM_cons]
      have hst : Snd (step (fieldHash he) (leaf, i) s) (fun w st => st.2 = parent i ∧
          w st.1.variable_ = if i % 2 = 1 then H (w leaf.variable_) (w s.variable_)
            else H (w s.variable_) (w leaf.variable_)) := by
        unfold step
        refine (select_snd _ _ _).bind fun _ => ?_
        by_cases hi : i % 2 = 1
        · have : isLeft i = true := by simp [isLeft, Nat.and_one_is_mod, hi]
          simp only [this, if_true, hi]
          exact (hbind leaf s).bind fun out => Snd.pure fun w _ h _ => ⟨rfl, h⟩
        · have : isLeft i = false := by simp [isLeft, Nat.and_one_is_mod, hi]
          simp only [this, hi, if_false, Bool.false_eq_true]
          exact (hbind s leaf).bind fun out => Snd.pure fun w _ h _ => ⟨rfl, h⟩
      refine hst.bind fun st => ?_
      obtain ⟨o, j⟩ := st
      refine (ih j o).weaken fun w st _ h hst => ?_
      obtain ⟨hj, ho⟩ := hst
      simp only at hj ho
      have hpar : parent i = (i - 1) / 2 := by
        unfold parent
        split
        · subst_vars; rfl
        · rw [Nat.shiftRight_eq_div_pow, pow_one]
      rw [h, ho, hj, hpar]
      rfl
  have hall : Snd (setMembership (fieldHash he) index lemmas root leaf) (fun w _ =>
      w root.variable_ = pathRoot H index (w leaf.variable_) (lemmas.map fun l => w l.variable_)) := by
    unfold setMembership
    refine (key lemmas index leaf).bind fun st => ?_
    refine (Snd.forM (R := fun w e => w e.1 = w e.2) (fun e => (Snd.enforce _ _ _).weaken
      fun w ho _ h => ?_) _).weaken fun w _ _ h hk => ?_
    · simpa [ho] using h
    · have := h (st.1.variable_, root.variable_) (by simp [fieldHash])
      rw [← hk]; exact this.symm
  exact (hall cs () cs' hrun).2 w ho hs

/-- Concrete case for the partial theorem: the "hash" `H a b = a * b` with its output constrained. -/
example : ∀ a b : FieldOut F, Snd ((fun (ps : List (FieldOut F)) => match ps with
      | [a, b] => (do
        let v ← alloc (okOr (a.value.bind fun x => b.value.map fun y => x * y))
        enforce (LC.zero.addVar a.variable_) (LC.zero.addVar b.variable_) (LC.zero.addVar v)
        return ⟨a.value.bind fun x => b.value.map fun y => x * y, v⟩ : Synth F (FieldOut F))
      | _ => panicS) [a, b])
    (fun w out => w out.variable_ = w a.variable_ * w b.variable_) := by
  intro a b
  refine (Snd.alloc _).bind fun v => (Snd.enforce _ _ _).bind fun _ => Snd.pure fun w ho h _ => ?_
  simp at h
  exact h.symm

end circuit

end Zkp
