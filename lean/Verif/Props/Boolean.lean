/- C06 – C10: Boolean gadgets. -/
import Verif.Proof.Boolean
import Mathlib.Algebra.Field.ZMod
import Mathlib.Tactic.NormNum.Prime

set_option linter.unusedSectionVars false
set_option linter.unusedSimpArgs false

namespace Zkp

variable {F : Type} [Field F]

/-! ### C06 – soundness of the gates -/

/-- Every assignment satisfying the constraints after an allocation gives the new variable a bit. -/
theorem C06_alloc_is_bit (v : Option Bool) (cs cs' : CS F) (r : AllocatedBit)
    (hrun : AllocatedBit.alloc v cs = .ok (r, cs') ∨ AllocatedBit.allocInput v cs = .ok (r, cs'))
    (w : Index → F) (hone : w .one = 1) (hsat : cs'.Sat w) :
    w r.variable_ = 0 ∨ w r.variable_ = 1 := by
  have key : ∃ x, (Boolean.is r).Rep w x := by
    rcases hrun with h | h
    · exact (AllocatedBit.alloc_snd v cs r cs' h).2 w hone hsat
    · exact (AllocatedBit.allocInput_snd v cs r cs' h).2 w hone hsat
  obtain ⟨x, hx⟩ := key
  cases x
  · left; simpa [Boolean.Rep, Boolean.val] using hx
  · right; simpa [Boolean.Rep, Boolean.val] using hx

/-- The conditional allocation gives a bit, which is moreover `0` when the guard bit is `1`. -/
theorem C06_alloc_conditionally (v : Option Bool) (guard : AllocatedBit) (cs cs' : CS F)
    (r : AllocatedBit) (hrun : AllocatedBit.allocConditionally v guard cs = .ok (r, cs'))
    (w : Index → F) (hone : w .one = 1) (hsat : cs'.Sat w)
    (hguard : w guard.variable_ = 0 ∨ w guard.variable_ = 1) :
    (w r.variable_ = 0 ∨ w r.variable_ = 1) ∧ (w guard.variable_ = 1 → w r.variable_ = 0) := by
  obtain ⟨y, hy⟩ : ∃ y, (Boolean.is guard).Rep w y := by
    rcases hguard with h | h
    · exact ⟨false, by simpa [Boolean.Rep, Boolean.val] using h⟩
    · exact ⟨true, by simpa [Boolean.Rep, Boolean.val] using h⟩
  obtain ⟨x, hx, hxy⟩ :=
    (AllocatedBit.allocConditionally_snd v guard cs r cs' hrun).2 w hone hsat y hy
  simp only [Boolean.Rep, Boolean.val] at hx hy
  cases x <;> cases y <;> simp_all

/-- For every operand shape and every satisfying assignment under which the operands stand for the
bits `x` and `y`, the outputs of the gates stand for the corresponding Boolean function. -/
theorem C06_gates_sound (a b : Boolean) (cs : CS F) (w : Index → F) (hone : w .one = 1)
    (x y : Bool) (ha : a.Rep w x) (hb : b.Rep w y) :
    a.not.Rep w (!x) ∧
    (∀ r cs', Boolean.xor a b cs = .ok (r, cs') → cs'.Sat w → cs.Sat w ∧ r.Rep w (x ^^ y)) ∧
    (∀ r cs', Boolean.and a b cs = .ok (r, cs') → cs'.Sat w → cs.Sat w ∧ r.Rep w (x && y)) := by
  refine ⟨ha.not, fun r cs' h hs => ?_, fun r cs' h hs => ?_⟩
  · obtain ⟨e, p⟩ := Boolean.xor_snd a b cs r cs' h
    exact ⟨e.sat hs, p w hone hs x y ha hb⟩
  · obtain ⟨e, p⟩ := Boolean.and_snd a b cs r cs' h
    exact ⟨e.sat hs, p w hone hs x y ha hb⟩

/-- The four gates on allocated bits. -/
theorem C06_allocated_gates_sound (a b : AllocatedBit) (cs : CS F) (w : Index → F)
    (hone : w .one = 1) (x y : Bool) (ha : w a.variable_ = if x then 1 else 0)
    (hb : w b.variable_ = if y then 1 else 0) :
    (∀ r cs', AllocatedBit.xor a b cs = .ok (r, cs') → cs'.Sat w →
      w r.variable_ = if (x ^^ y) then 1 else 0) ∧
    (∀ r cs', AllocatedBit.and a b cs = .ok (r, cs') → cs'.Sat w →
      w r.variable_ = if (x && y) then 1 else 0) ∧
    (∀ r cs', AllocatedBit.andNot a b cs = .ok (r, cs') → cs'.Sat w →
      w r.variable_ = if (x && !y) then 1 else 0) ∧
    (∀ r cs', AllocatedBit.nor a b cs = .ok (r, cs') → cs'.Sat w →
      w r.variable_ = if (!(x || y)) then 1 else 0) := by
  refine ⟨fun r cs' h hs => ?_, fun r cs' h hs => ?_, fun r cs' h hs => ?_, fun r cs' h hs => ?_⟩
  · exact (AllocatedBit.xor_snd a b cs r cs' h).2 w hone hs x y ha hb
  · exact (AllocatedBit.and_snd a b cs r cs' h).2 w hone hs x y ha hb
  · exact (AllocatedBit.andNot_snd a b cs r cs' h).2 w hone hs x y ha hb
  · have := (AllocatedBit.nor_snd a b cs r cs' h).2 w hone hs x y ha hb
    rw [Bool.not_or]; exact this

/-- The linear expression of a Boolean (any coefficient) is the coefficient times its bit. -/
theorem C06_linear_expression (b : Boolean) (coeff : F) (w : Index → F) (hone : w .one = 1)
    (x : Bool) (hb : b.Rep w x) : (b.lc coeff).eval w = if x then coeff else 0 := by
  rw [Boolean.eval_lc w hone, hb]
  cases x <;> simp

section Examples

instance : Fact (Nat.Prime 7) := ⟨by norm_num⟩

/-- Two allocated bits (values 1 and 0) over the field with seven elements. -/
def exCs : CS (ZMod 7) := ⟨true, [1], [1, 0], []⟩
def exA : AllocatedBit := ⟨.aux 0, some true⟩
def exB : AllocatedBit := ⟨.aux 1, some false⟩
def exW : Index → ZMod 7
  | .input _ => 1
  | .aux 1 => 0
  | .aux _ => 1

/-- C06, concrete case: `xor` of two allocated bits, satisfied by an
explicit assignment; the hypotheses of `C06_gates_sound` hold and the gate emits one constraint. -/
example : ∃ r cs', Boolean.xor (.is exA) (.is exB) exCs = .ok (r, cs') ∧ cs'.constraints.length = 1 ∧
    cs'.Sat exW ∧ exW .one = 1 ∧ (Boolean.is exA).Rep exW true ∧ (Boolean.is exB).Rep exW false := by
  refine ⟨_, _, rfl, rfl, ?_, rfl, rfl, rfl⟩
  intro k hk
  simp only [exCs, List.nil_append, List.mem_singleton] at hk
  subst hk
  unfold R1C.Holds
  simp [exW, exA, exB, Index.one]
  try decide

/-- C06, concrete case for the conditional allocation. -/
example : ∃ r cs', AllocatedBit.allocConditionally (some true) exB exCs = .ok (r, cs') ∧
    cs'.Sat exW ∧ exW exB.variable_ = 0 := by
  refine ⟨_, _, rfl, ?_, rfl⟩
  intro k hk
  simp only [exCs, List.nil_append, List.mem_singleton] at hk
  subst hk
  unfold R1C.Holds
  simp [exW, exA, exB, Index.one]
  try decide

end Examples

/-! ### C07 – completeness of the gates -/

/-- From any proving run in good standing and operands carrying the values `x`, `y` (in any shape),
every gate succeeds; the run stays in good standing (all constraints hold for the recorded values)
and the output carries the Boolean function of the input values. -/
theorem C07_gates_complete (a b : Boolean) (cs : CS F) (hgood : cs.Good) (x y : Bool)
    (ha : a.Known cs x) (hb : b.Known cs y) :
    a.not.Known cs (!x) ∧
    (∃ r cs', Boolean.xor a b cs = .ok (r, cs') ∧ cs.Ext cs' ∧ cs'.Good ∧ r.Known cs' (x ^^ y)) ∧
    (∃ r cs', Boolean.and a b cs = .ok (r, cs') ∧ cs.Ext cs' ∧ cs'.Good ∧ r.Known cs' (x && y)) :=
  ⟨ha.not, Boolean.xor_cmp ha hb hgood, Boolean.and_cmp ha hb hgood⟩

theorem C07_allocated_gates_complete (a b : AllocatedBit) (cs : CS F) (hgood : cs.Good)
    (x y : Bool) (ha : (Boolean.is a).Known cs x) (hb : (Boolean.is b).Known cs y) :
    (∃ r cs', AllocatedBit.xor a b cs = .ok (r, cs') ∧ cs.Ext cs' ∧ cs'.Good ∧
      (Boolean.is r).Known cs' (x ^^ y)) ∧
    (∃ r cs', AllocatedBit.and a b cs = .ok (r, cs') ∧ cs.Ext cs' ∧ cs'.Good ∧
      (Boolean.is r).Known cs' (x && y)) ∧
    (∃ r cs', AllocatedBit.andNot a b cs = .ok (r, cs') ∧ cs.Ext cs' ∧ cs'.Good ∧
      (Boolean.is r).Known cs' (x && !y)) ∧
    (∃ r cs', AllocatedBit.nor a b cs = .ok (r, cs') ∧ cs.Ext cs' ∧ cs'.Good ∧
      (Boolean.is r).Known cs' (!(x || y))) := by
  refine ⟨AllocatedBit.xor_cmp ha hb hgood, AllocatedBit.and_cmp ha hb hgood,
    AllocatedBit.andNot_cmp ha hb hgood, ?_⟩
  rw [Bool.not_or]
  exact AllocatedBit.nor_cmp ha hb hgood

/-- Allocation with a value succeeds and records it. -/
theorem C07_alloc_complete (v : Bool) (cs : CS F) (hgood : cs.Good) :
    (∃ r cs', AllocatedBit.alloc (some v) cs = .ok (r, cs') ∧ cs.Ext cs' ∧ cs'.Good ∧
      (Boolean.is r).Known cs' v) ∧
    (∃ r cs', AllocatedBit.allocInput (some v) cs = .ok (r, cs') ∧ cs.Ext cs' ∧ cs'.Good ∧
      (Boolean.is r).Known cs' v) ∧
    (∀ guard g, (Boolean.is guard).Known cs g → (g = true → v = false) →
      ∃ r cs', AllocatedBit.allocConditionally (some v) guard cs = .ok (r, cs') ∧ cs.Ext cs' ∧
        cs'.Good ∧ (Boolean.is r).Known cs' v) :=
  ⟨AllocatedBit.alloc_cmp v hgood, AllocatedBit.allocInput_cmp v hgood,
   fun _ _ hk hv => AllocatedBit.allocConditionally_cmp v hk hv hgood⟩

/-- While proving, a missing value is reported, never invented. -/
theorem C07_missing_value (a b : AllocatedBit) (cs : CS F) (hp : cs.proving = true)
    (hmiss : a.value = none ∨ b.value = none) :
    AllocatedBit.alloc none cs = .error .assignmentMissing ∧
    AllocatedBit.xor a b cs = .error .assignmentMissing ∧
    AllocatedBit.and a b cs = .error .assignmentMissing ∧
    AllocatedBit.andNot a b cs = .error .assignmentMissing ∧
    AllocatedBit.nor a b cs = .error .assignmentMissing := by
  have hf : ∀ op, (AllocatedBit.gateClosure op a b : Except SynthesisError F) =
      .error .assignmentMissing := by
    intro op
    rcases hmiss with h | h
    · simp [AllocatedBit.gateClosure, h, okOr, bind, Except.bind]
    · cases ha : a.value <;> simp [AllocatedBit.gateClosure, ha, h, okOr, bind, Except.bind]
  refine ⟨?_, ?_, ?_, ?_, ?_⟩ <;>
    simp [AllocatedBit.alloc, AllocatedBit.xor, AllocatedBit.and, AllocatedBit.andNot,
      AllocatedBit.nor, bind, StateT.bind, Except.bind, isProving, alloc, hp, hf, bitClosure, okOr]

/-- C07, concrete case: the example system is in good standing, both operands carry values. -/
example : exCs.Good ∧ (Boolean.not_ exA).Known exCs false ∧ (Boolean.is exB).Known exCs false :=
  ⟨⟨rfl, rfl, fun _ _ k hk => by simp [exCs] at hk⟩,
   ⟨rfl, fun w hw => by
      have := hw.2 0 1 rfl
      simp [Boolean.Rep, Boolean.val, exA, this]⟩,
   ⟨rfl, fun w hw => by
      have := hw.2 1 0 rfl
      simp [Boolean.Rep, Boolean.val, exB, this]⟩⟩

/-- C07, missing value: an operand without value in a proving run. -/
example : (AllocatedBit.mk (.aux 0) none).value = none ∧ exCs.proving = true := ⟨rfl, rfl⟩

/-! ### C08 – equality enforcement -/

/-- The constraints after `enforce_equal` are satisfied exactly by the assignments that satisfied
the earlier ones and give both operands the same value (any shapes, any values). -/
theorem C08_enforce_equal_exact (a b : Boolean) (cs cs' : CS F)
    (hrun : Boolean.enforceEqual a b cs = .ok ((), cs')) (w : Index → F) (hone : w .one = 1) :
    cs'.Sat w ↔ cs.Sat w ∧ a.val w = b.val w := by
  constructor
  · intro hs
    obtain ⟨e, p⟩ := Boolean.enforceEqual_snd a b cs () cs' hrun
    exact ⟨e.sat hs, p w hone hs⟩
  · rintro ⟨hs, hv⟩
    exact Boolean.enforceEqual_sat a b cs cs' hrun w hone hs hv

/-- It is refused exactly for two different constants. -/
theorem C08_constants_rejected (a b : Boolean) (cs : CS F) :
    (∃ e, Boolean.enforceEqual a b cs = .error e) ↔
      ∃ x : Bool, a = .constant x ∧ b = .constant (!x) := by
  constructor
  · rintro ⟨e, h⟩
    rcases a with a | a | (_ | _) <;> rcases b with b | b | (_ | _) <;>
      simp_all [Boolean.enforceEqual, enforce, failS, pure, StateT.pure, Except.pure]
  · rintro ⟨x, rfl, rfl⟩
    refine ⟨.unsatisfiable, ?_⟩
    cases x <;> rfl

/-- C08, concrete case: an allocated bit against a negated one. -/
example : ∃ cs', Boolean.enforceEqual (.is exA) (.not_ exB) exCs = .ok ((), cs') ∧
    (Boolean.is exA).val exW = (Boolean.not_ exB).val exW ∧ cs'.constraints.length = 1 :=
  ⟨_, rfl, rfl, rfl⟩

/-! ### C09 – choice and majority -/

/-- Majority of three bits, by counting. -/
def majority (x y z : Bool) : Bool := decide (2 ≤ x.toNat + y.toNat + z.toNat)

theorem C09_ch_maj_sound (a b c : Boolean) (cs : CS F) (w : Index → F) (hone : w .one = 1)
    (x y z : Bool) (ha : a.Rep w x) (hb : b.Rep w y) (hc : c.Rep w z) :
    (∀ r cs', Boolean.sha256Ch a b c cs = .ok (r, cs') → cs'.Sat w →
      cs.Sat w ∧ r.Rep w ((x && y) ^^ (!x && z))) ∧
    (∀ r cs', Boolean.sha256Maj a b c cs = .ok (r, cs') → cs'.Sat w →
      cs.Sat w ∧ r.Rep w (majority x y z)) := by
  refine ⟨fun r cs' h hs => ?_, fun r cs' h hs => ?_⟩
  · obtain ⟨e, p⟩ := Boolean.sha256Ch_snd a b c cs r cs' h
    exact ⟨e.sat hs, Boolean.rep_congr (p w hone hs x y z ha hb hc)
      (by cases x <;> cases y <;> cases z <;> rfl)⟩
  · obtain ⟨e, p⟩ := Boolean.sha256Maj_snd a b c cs r cs' h
    exact ⟨e.sat hs, Boolean.rep_congr (p w hone hs x y z ha hb hc)
      (by cases x <;> cases y <;> cases z <;> rfl)⟩

theorem C09_ch_maj_complete (a b c : Boolean) (cs : CS F) (hgood : cs.Good)
    (x y z : Bool) (ha : a.Known cs x) (hb : b.Known cs y) (hc : c.Known cs z) :
    (∃ r cs', Boolean.sha256Ch a b c cs = .ok (r, cs') ∧ cs.Ext cs' ∧ cs'.Good ∧
      r.Known cs' ((x && y) ^^ (!x && z))) ∧
    (∃ r cs', Boolean.sha256Maj a b c cs = .ok (r, cs') ∧ cs.Ext cs' ∧ cs'.Good ∧
      r.Known cs' (majority x y z)) := by
  have e1 : (if x then y else z) = ((x && y) ^^ (!x && z)) := by
    cases x <;> cases y <;> cases z <;> rfl
  have e2 : Boolean.majFn x y z = majority x y z := by
    cases x <;> cases y <;> cases z <;> rfl
  rw [← e1, ← e2]
  exact ⟨Boolean.sha256Ch_cmp ha hb hc hgood, Boolean.sha256Maj_cmp ha hb hc hgood⟩

/-- C09, concrete case: choice with an allocated selector, a negated and an allocated branch. -/
example : ∃ r cs', Boolean.sha256Ch (.is exA) (.not_ exB) (.is exB) exCs = .ok (r, cs') ∧
    cs'.constraints.length = 1 ∧ (Boolean.is exA).Rep exW true ∧ (Boolean.not_ exB).Rep exW true ∧
    (Boolean.is exB).Rep exW false :=
  ⟨_, _, rfl, rfl, rfl, rfl, rfl⟩

/-! ### C10 – bit decomposition of a field element -/

/-- The number written by a list of bit variables, least significant first, as a field element. -/
def packBits (w : Index → F) (bits : List Boolean) : F :=
  (bits.zipIdx.map fun p => 2 ^ p.2 * p.1.val w).sum

/-- The English claim: in every satisfying assignment the bits add up to the element. -/
def C10_statement (F : Type) [Field F] (sizeInBits : Nat) (repr : F → Nat) : Prop :=
  ∀ (v : F) (cs cs' : CS F) (bits : List Boolean),
    fieldIntoBooleanVecLe sizeInBits repr (some v) cs = .ok (bits, cs') →
    ∀ w : Index → F, w .one = 1 → cs'.Sat w → packBits w bits = v

/-- The claim is false of the code, for every field and every positive bit width: no constraint
ties the bits to the element; a prover may replace all bits by zeros and satisfy everything. -/
theorem C10_violated_not_binding (sizeInBits : Nat) (repr : F → Nat) :
    ¬ C10_statement F sizeInBits repr := by
  intro h
  obtain ⟨bits, cs', hrun, _, hg, _⟩ :=
    fieldInto_cmp (cs := CS.new true) sizeInBits repr (1 : F) CS.good_new
  obtain ⟨w, hone, hsat, hval⟩ := fieldInto_zero sizeInBits repr (1 : F) bits cs' hrun
  have h1 := h 1 _ _ _ hrun w hone hsat
  have h0 : packBits w bits = 0 := by
    unfold packBits
    apply List.sum_eq_zero
    intro x hx
    obtain ⟨p, hp, rfl⟩ := List.mem_map.mp hx
    have : p.1 ∈ bits := List.fst_mem_of_mem_zipIdx hp
    rw [hval _ this, mul_zero]
  rw [h0] at h1
  exact zero_ne_one h1

/-- What does hold: the honest prover's bits are the binary digits of the element, and in every
satisfying assignment each of them is a bit. Missing: the recomposition constraint. -/
theorem C10_bits_partial (sizeInBits : Nat) (repr : F → Nat) (v : F) (cs : CS F)
    (hgood : cs.Good) :
    ∃ bits cs', fieldIntoBooleanVecLe sizeInBits repr (some v) cs = .ok (bits, cs') ∧
      cs.Ext cs' ∧ cs'.Good ∧ bits.length = sizeInBits ∧
      (∀ (i : Nat) (b : Boolean), bits[i]? = some b → b.Known cs' ((repr v).testBit i)) ∧
      (∀ w : Index → F, w .one = 1 → cs'.Sat w → ∀ b ∈ bits, b.val w = 0 ∨ b.val w = 1) := by
  obtain ⟨bits, cs', hrun, e, g, hlen, hk⟩ := fieldInto_cmp sizeInBits repr v hgood
  refine ⟨bits, cs', hrun, e, g, hlen, hk, ?_⟩
  intro w hone hsat b hb
  obtain ⟨x, hx⟩ := (fieldInto_snd sizeInBits repr (some v) cs bits cs' hrun).2 w hone hsat b hb
  rw [hx]
  cases x <;> simp

example : (CS.new true : CS (ZMod 7)).Good := CS.good_new

end Zkp
