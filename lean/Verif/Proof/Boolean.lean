/- Soundness and completeness lemmas for the Boolean gadgets. -/
import Verif.Proof.Cs

set_option linter.unusedSectionVars false
set_option linter.unusedSimpArgs false

namespace Zkp

variable {F : Type} [Field F]

@[simp] theorem boolF_eq (b : Bool) : (boolF b : F) = if b then 1 else 0 := rfl

theorem Boolean.eval_lc (w : Index → F) (h1 : w .one = 1) (b : Boolean) (c : F) :
    (b.lc c).eval w = c * b.val w := by
  cases b with
  | is v => simp [Boolean.lc, Boolean.val]
  | not_ v => simp [Boolean.lc, Boolean.val, h1]; ring
  | constant c => cases c <;> simp [Boolean.lc, Boolean.val, h1]

theorem Boolean.val_not (w : Index → F) (b : Boolean) : b.not.val w = 1 - b.val w := by
  cases b with
  | is v => rfl
  | not_ v => simp [Boolean.not, Boolean.val]
  | constant c => cases c <;> simp [Boolean.not, Boolean.val]

theorem Boolean.Rep.not {w : Index → F} {b : Boolean} {x : Bool} (h : b.Rep w x) :
    b.not.Rep w (!x) := by
  unfold Boolean.Rep at *
  rw [Boolean.val_not, h]
  cases x <;> simp

theorem Boolean.rep_not_iff {w : Index → F} {b : Boolean} {x : Bool} :
    b.not.Rep w x ↔ b.Rep w (!x) := by
  unfold Boolean.Rep
  rw [Boolean.val_not]
  constructor <;> intro h
  · have : b.val w = 1 - (if x then 1 else 0) := by rw [← h]; ring
    rw [this]; cases x <;> simp
  · rw [h]; cases x <;> simp

theorem Boolean.rep_constant {w : Index → F} {c x : Bool} :
    (Boolean.constant c).Rep w x ↔ c = x := by
  unfold Boolean.Rep Boolean.val
  cases c <;> cases x <;> simp

theorem Boolean.Rep.unique {w : Index → F} {b : Boolean} {x y : Bool} (h1 : b.Rep w x)
    (h2 : b.Rep w y) : x = y := by
  unfold Boolean.Rep at *
  rw [h1] at h2
  cases x <;> cases y <;> simp_all

theorem Boolean.getValue_not (b : Boolean) : b.not.getValue = b.getValue.map (!·) := by
  cases b with
  | is v => rfl
  | not_ v => cases h : v.value <;> simp [Boolean.not, Boolean.getValue, h]
  | constant c => rfl

theorem Boolean.Known.not {cs : CS F} {b : Boolean} {x : Bool} (h : b.Known cs x) :
    b.not.Known cs (!x) :=
  ⟨by rw [Boolean.getValue_not, h.1]; rfl, fun w hw => (h.2 w hw).not⟩

theorem Boolean.known_not_iff {cs : CS F} {b : Boolean} {x : Bool} :
    b.not.Known cs x ↔ b.Known cs (!x) := by
  constructor
  · intro h
    have := h.not
    cases b <;> simpa [Boolean.not] using this
  · intro h
    have := h.not
    simpa using this

theorem Boolean.known_constant {cs : CS F} (c : Bool) : (Boolean.constant c).Known cs c :=
  ⟨rfl, fun _ _ => Boolean.rep_constant.mpr rfl⟩

theorem Boolean.known_not_bit {cs : CS F} {b : AllocatedBit} {x : Bool} :
    (Boolean.not_ b).Known cs x ↔ (Boolean.is b).Known cs (!x) :=
  Boolean.known_not_iff (b := Boolean.is b)

theorem Boolean.rep_not_bit {w : Index → F} {b : AllocatedBit} {x : Bool} :
    (Boolean.not_ b).Rep w x ↔ (Boolean.is b).Rep w (!x) :=
  Boolean.rep_not_iff (b := Boolean.is b)

theorem rep_of_mul {w : Index → F} {b : AllocatedBit}
    (h : (1 - w b.variable_) * w b.variable_ = 0) : ∃ x, (Boolean.is b).Rep w x := by
  rcases mul_eq_zero.mp h with h | h
  · exact ⟨true, by simp only [Boolean.Rep, Boolean.val, if_true]; linear_combination -h⟩
  · exact ⟨false, by simpa [Boolean.Rep, Boolean.val] using h⟩

/-! ### Allocation -/

theorem AllocatedBit.alloc_snd (v : Option Bool) :
    Snd (AllocatedBit.alloc v : Synth F AllocatedBit)
      (fun w r => ∃ x, (Boolean.is r).Rep w x) := by
  unfold AllocatedBit.alloc
  refine (Snd.alloc _).bind fun var => (Snd.enforce _ _ _).bind fun _ => Snd.pure ?_
  intro w h1 he _
  apply rep_of_mul
  simpa [h1] using he

theorem AllocatedBit.allocInput_snd (v : Option Bool) :
    Snd (AllocatedBit.allocInput v : Synth F AllocatedBit)
      (fun w r => ∃ x, (Boolean.is r).Rep w x) := by
  unfold AllocatedBit.allocInput
  refine (Snd.allocInput _).bind fun var => (Snd.enforce _ _ _).bind fun _ => Snd.pure ?_
  intro w h1 he _
  apply rep_of_mul
  simpa [h1] using he

theorem AllocatedBit.allocConditionally_snd (v : Option Bool) (m : AllocatedBit) :
    Snd (AllocatedBit.allocConditionally v m : Synth F AllocatedBit)
      (fun w r => ∀ y, (Boolean.is m).Rep w y →
        ∃ x, (Boolean.is r).Rep w x ∧ (y = true → x = false)) := by
  unfold AllocatedBit.allocConditionally
  refine (Snd.alloc _).bind fun var => (Snd.enforce _ _ _).bind fun _ => Snd.pure ?_
  intro w h1 he _ y hy
  have hy' : w m.variable_ = if y then 1 else 0 := hy
  have he' : (1 - w m.variable_ - w var) * w var = 0 := by simpa [h1, sub_eq_add_neg] using he
  rw [hy'] at he'
  cases y with
  | true =>
    refine ⟨false, ?_, fun _ => rfl⟩
    have : w var = 0 := by simpa using he'
    simpa [Boolean.Rep, Boolean.val] using this
  | false =>
    obtain ⟨x, hx⟩ := rep_of_mul (w := w) (b := ⟨var, v⟩) (by simpa using he')
    exact ⟨x, hx, by simp⟩

theorem known_is {cs : CS F} {var : Index} {v : Bool}
    (h : ∀ w : Index → F, cs.Agrees w → w var = boolF v) :
    (Boolean.is ⟨var, some v⟩).Known cs v :=
  ⟨rfl, fun w hw => h w hw⟩

theorem AllocatedBit.alloc_cmp {cs : CS F} (v : Bool) :
    Cmp cs (AllocatedBit.alloc (some v) : Synth F AllocatedBit)
      (fun r cs' => (Boolean.is r).Known cs' v) := by
  unfold AllocatedBit.alloc
  refine (Cmp.alloc (v := boolF v) rfl).bind fun var cs1 e1 h1 => ?_
  refine (Cmp.enforce ?_).bind fun _ cs2 e2 _ => Cmp.pure (known_is fun w hw => h1 w (e2.agrees hw))
  intro w ho hw
  have := h1 w hw
  simp [ho, this]
  cases v <;> simp

theorem AllocatedBit.allocInput_cmp {cs : CS F} (v : Bool) :
    Cmp cs (AllocatedBit.allocInput (some v) : Synth F AllocatedBit)
      (fun r cs' => (Boolean.is r).Known cs' v) := by
  unfold AllocatedBit.allocInput
  refine (Cmp.allocInput (v := boolF v) rfl).bind fun var cs1 e1 h1 => ?_
  refine (Cmp.enforce ?_).bind fun _ cs2 e2 _ => Cmp.pure (known_is fun w hw => h1 w (e2.agrees hw))
  intro w ho hw
  have := h1 w hw
  simp [ho, this]
  cases v <;> simp

theorem AllocatedBit.allocConditionally_cmp {cs : CS F} (v : Bool) {m : AllocatedBit} {y : Bool}
    (hm : (Boolean.is m).Known cs y) (hy : y = true → v = false) :
    Cmp cs (AllocatedBit.allocConditionally (some v) m : Synth F AllocatedBit)
      (fun r cs' => (Boolean.is r).Known cs' v) := by
  unfold AllocatedBit.allocConditionally
  refine (Cmp.alloc (v := boolF v) rfl).bind fun var cs1 e1 h1 => ?_
  refine (Cmp.enforce ?_).bind fun _ cs2 e2 _ => Cmp.pure (known_is fun w hw => h1 w (e2.agrees hw))
  intro w ho hw
  have hv := h1 w hw
  have hm' : w m.variable_ = if y then 1 else 0 := (hm.mono e1).2 w hw
  simp [ho, hv, hm']
  cases v <;> cases y <;> simp_all

/-! ### Binary gates on allocated bits -/

theorem AllocatedBit.xor_snd (a b : AllocatedBit) :
    Snd (AllocatedBit.xor a b : Synth F AllocatedBit) (fun w r => ∀ x y,
      (Boolean.is a).Rep w x → (Boolean.is b).Rep w y → (Boolean.is r).Rep w (x ^^ y)) := by
  unfold AllocatedBit.xor
  refine Snd.isProving.bind fun pr => (Snd.alloc _).bind fun var =>
    (Snd.enforce _ _ _).bind fun _ => Snd.pure ?_
  intro w h1 he _ _ x y hx hy
  simp only [Boolean.Rep, Boolean.val] at hx hy ⊢
  simp [hx, hy] at he
  cases x <;> cases y <;> simp at he ⊢ <;> first | linear_combination he | linear_combination -he

theorem AllocatedBit.and_snd (a b : AllocatedBit) :
    Snd (AllocatedBit.and a b : Synth F AllocatedBit) (fun w r => ∀ x y,
      (Boolean.is a).Rep w x → (Boolean.is b).Rep w y → (Boolean.is r).Rep w (x && y)) := by
  unfold AllocatedBit.and
  refine Snd.isProving.bind fun pr => (Snd.alloc _).bind fun var =>
    (Snd.enforce _ _ _).bind fun _ => Snd.pure ?_
  intro w h1 he _ _ x y hx hy
  simp only [Boolean.Rep, Boolean.val] at hx hy ⊢
  simp [hx, hy] at he
  cases x <;> cases y <;> simp at he ⊢ <;> first | linear_combination he | linear_combination -he

theorem AllocatedBit.andNot_snd (a b : AllocatedBit) :
    Snd (AllocatedBit.andNot a b : Synth F AllocatedBit) (fun w r => ∀ x y,
      (Boolean.is a).Rep w x → (Boolean.is b).Rep w y → (Boolean.is r).Rep w (x && !y)) := by
  unfold AllocatedBit.andNot
  refine Snd.isProving.bind fun pr => (Snd.alloc _).bind fun var =>
    (Snd.enforce _ _ _).bind fun _ => Snd.pure ?_
  intro w h1 he _ _ x y hx hy
  simp only [Boolean.Rep, Boolean.val] at hx hy ⊢
  simp [hx, hy, h1] at he
  cases x <;> cases y <;> simp at he ⊢ <;> first | linear_combination he | linear_combination -he

theorem AllocatedBit.nor_snd (a b : AllocatedBit) :
    Snd (AllocatedBit.nor a b : Synth F AllocatedBit) (fun w r => ∀ x y,
      (Boolean.is a).Rep w x → (Boolean.is b).Rep w y → (Boolean.is r).Rep w (!x && !y)) := by
  unfold AllocatedBit.nor
  refine Snd.isProving.bind fun pr => (Snd.alloc _).bind fun var =>
    (Snd.enforce _ _ _).bind fun _ => Snd.pure ?_
  intro w h1 he _ _ x y hx hy
  simp only [Boolean.Rep, Boolean.val] at hx hy ⊢
  simp [hx, hy, h1] at he
  cases x <;> cases y <;> simp at he ⊢ <;> first | linear_combination he | linear_combination -he

/-- Common part of the completeness proofs of the binary gates. -/
theorem gate_cmp {cs : CS F} (op : Bool → Bool → Bool) {a b : AllocatedBit} {x y : Bool}
    (ha : (Boolean.is a).Known cs x) (hb : (Boolean.is b).Known cs y) (A B C : Index → LC F)
    (h : ∀ (w : Index → F) (r : Index), w .one = 1 → w a.variable_ = boolF x →
      w b.variable_ = boolF y → w r = boolF (op x y) →
      (A r).eval w * (B r).eval w = (C r).eval w) :
    Cmp cs (do
      let pr ← isProving
      let r ← Zkp.alloc (AllocatedBit.gateClosure op a b)
      enforce (A r) (B r) (C r)
      return (⟨r, AllocatedBit.gateValue op pr a b⟩ : AllocatedBit) : Synth F AllocatedBit)
      (fun r cs' => (Boolean.is r).Known cs' (op x y)) := by
  have va : a.value = some x := ha.1
  have vb : b.value = some y := hb.1
  refine Cmp.isProving.bind fun pr cs0 e0 hp => ?_
  have hf : (AllocatedBit.gateClosure op a b : Except SynthesisError F) = .ok (boolF (op x y)) := by
    simp [AllocatedBit.gateClosure, va, vb, okOr, bind, Except.bind]
  refine (Cmp.alloc hf).bind fun var cs1 e1 h1 => ?_
  refine (Cmp.enforce ?_).bind fun _ cs2 e2 _ => Cmp.pure ?_
  · intro w ho hw
    have e := e0.trans e1
    exact h w var ho ((ha.mono e).2 w hw) ((hb.mono e).2 w hw) (h1 w hw)
  · subst hp
    simp only [AllocatedBit.gateValue, va, vb, if_true]
    exact known_is fun w hw => h1 w (e2.agrees hw)

theorem AllocatedBit.xor_cmp {cs : CS F} {a b : AllocatedBit} {x y : Bool}
    (ha : (Boolean.is a).Known cs x) (hb : (Boolean.is b).Known cs y) :
    Cmp cs (AllocatedBit.xor a b : Synth F AllocatedBit)
      (fun r cs' => (Boolean.is r).Known cs' (x ^^ y)) := by
  refine gate_cmp (fun x y => x ^^ y) ha hb _ _ _ fun w r h1 hx hy hr => ?_
  simp [h1, hx, hy, hr]
  cases x <;> cases y <;> simp

theorem AllocatedBit.and_cmp {cs : CS F} {a b : AllocatedBit} {x y : Bool}
    (ha : (Boolean.is a).Known cs x) (hb : (Boolean.is b).Known cs y) :
    Cmp cs (AllocatedBit.and a b : Synth F AllocatedBit)
      (fun r cs' => (Boolean.is r).Known cs' (x && y)) := by
  refine gate_cmp (fun x y => x && y) ha hb _ _ _ fun w r h1 hx hy hr => ?_
  simp [h1, hx, hy, hr]
  cases x <;> cases y <;> simp

theorem AllocatedBit.andNot_cmp {cs : CS F} {a b : AllocatedBit} {x y : Bool}
    (ha : (Boolean.is a).Known cs x) (hb : (Boolean.is b).Known cs y) :
    Cmp cs (AllocatedBit.andNot a b : Synth F AllocatedBit)
      (fun r cs' => (Boolean.is r).Known cs' (x && !y)) := by
  refine gate_cmp (fun x y => x && !y) ha hb _ _ _ fun w r h1 hx hy hr => ?_
  simp [h1, hx, hy, hr]
  cases x <;> cases y <;> simp

theorem AllocatedBit.nor_cmp {cs : CS F} {a b : AllocatedBit} {x y : Bool}
    (ha : (Boolean.is a).Known cs x) (hb : (Boolean.is b).Known cs y) :
    Cmp cs (AllocatedBit.nor a b : Synth F AllocatedBit)
      (fun r cs' => (Boolean.is r).Known cs' (!x && !y)) := by
  refine gate_cmp (fun x y => !x && !y) ha hb _ _ _ fun w r h1 hx hy hr => ?_
  simp [h1, hx, hy, hr]
  cases x <;> cases y <;> simp

/-! ### Booleans -/

namespace Boolean

/-- Closes the constant cases of the gate soundness proofs. -/
macro "bool_const" : tactic => `(tactic| (
  refine Snd.pure fun w _ x y hx hy => ?_
  try simp only [rep_constant] at hx
  try simp only [rep_constant] at hy
  try subst hx
  try subst hy
  simp_all [rep_constant, rep_not_iff, rep_not_bit, Boolean.not]))

theorem xor_snd (a b : Boolean) : Snd (Boolean.xor a b : Synth F Boolean) (fun w r =>
    ∀ x y, a.Rep w x → b.Rep w y → r.Rep w (x ^^ y)) := by
  rcases a with a | a | (_ | _) <;> rcases b with b | b | (_ | _) <;> simp only [Boolean.xor]
  · exact (AllocatedBit.xor_snd a b).map fun w _ r hr x y hx hy => hr _ _ hx hy
  · refine (AllocatedBit.xor_snd a b).map fun w _ r hr x y hx hy => ?_
    simpa using (hr _ _ hx (rep_not_bit.mp hy)).not
  · bool_const
  · bool_const
  · refine (AllocatedBit.xor_snd b a).map fun w _ r hr x y hx hy => ?_
    simpa [Bool.xor_comm] using (hr _ _ hy (rep_not_bit.mp hx)).not
  · refine (AllocatedBit.xor_snd a b).map fun w _ r hr x y hx hy => ?_
    simpa using (hr _ _ (rep_not_bit.mp hx) (rep_not_bit.mp hy))
  all_goals bool_const

theorem and_snd (a b : Boolean) : Snd (Boolean.and a b : Synth F Boolean) (fun w r =>
    ∀ x y, a.Rep w x → b.Rep w y → r.Rep w (x && y)) := by
  rcases a with a | a | (_ | _) <;> rcases b with b | b | (_ | _) <;> simp only [Boolean.and]
  · exact (AllocatedBit.and_snd a b).map fun w _ r hr x y hx hy => hr _ _ hx hy
  · refine (AllocatedBit.andNot_snd a b).map fun w _ r hr x y hx hy => ?_
    simpa using (hr _ _ hx (rep_not_bit.mp hy))
  · bool_const
  · bool_const
  · refine (AllocatedBit.andNot_snd b a).map fun w _ r hr x y hx hy => ?_
    simpa [Bool.and_comm] using (hr _ _ hy (rep_not_bit.mp hx))
  · refine (AllocatedBit.nor_snd a b).map fun w _ r hr x y hx hy => ?_
    simpa using (hr _ _ (rep_not_bit.mp hx) (rep_not_bit.mp hy))
  all_goals bool_const

theorem known_constant_iff {cs : CS F} {c x : Bool} (h : (Boolean.constant c).Known cs x) :
    c = x := by
  have := h.1
  simpa [getValue] using this

/-- Closes the constant cases of the gate completeness proofs. -/
macro "bool_const_cmp" ha:ident hb:ident : tactic => `(tactic| (
  refine Cmp.pure ?_
  try (have hxc := known_constant_iff $ha; subst hxc)
  try (have hxc := known_constant_iff $hb; subst hxc)
  simp_all [known_constant, known_not_iff, known_not_bit, Boolean.not]))

theorem xor_cmp {cs : CS F} {a b : Boolean} {x y : Bool} (ha : a.Known cs x) (hb : b.Known cs y) :
    Cmp cs (Boolean.xor a b : Synth F Boolean) (fun r cs' => r.Known cs' (x ^^ y)) := by
  rcases a with a | a | (_ | _) <;> rcases b with b | b | (_ | _) <;> simp only [Boolean.xor]
  · exact (AllocatedBit.xor_cmp ha hb).map fun r cs' _ hr => hr
  · refine (AllocatedBit.xor_cmp ha (known_not_bit.mp hb)).map fun r cs' _ hr => ?_
    simpa using hr.not
  · bool_const_cmp ha hb
  · bool_const_cmp ha hb
  · refine (AllocatedBit.xor_cmp hb (known_not_bit.mp ha)).map fun r cs' _ hr => ?_
    simpa [Bool.xor_comm] using hr.not
  · refine (AllocatedBit.xor_cmp (known_not_bit.mp ha) (known_not_bit.mp hb)).map
      fun r cs' _ hr => ?_
    simpa using hr
  all_goals bool_const_cmp ha hb

theorem and_cmp {cs : CS F} {a b : Boolean} {x y : Bool} (ha : a.Known cs x) (hb : b.Known cs y) :
    Cmp cs (Boolean.and a b : Synth F Boolean) (fun r cs' => r.Known cs' (x && y)) := by
  rcases a with a | a | (_ | _) <;> rcases b with b | b | (_ | _) <;> simp only [Boolean.and]
  · exact (AllocatedBit.and_cmp ha hb).map fun r cs' _ hr => hr
  · refine (AllocatedBit.andNot_cmp ha (known_not_bit.mp hb)).map fun r cs' _ hr => ?_
    simpa using hr
  · bool_const_cmp ha hb
  · bool_const_cmp ha hb
  · refine (AllocatedBit.andNot_cmp hb (known_not_bit.mp ha)).map fun r cs' _ hr => ?_
    simpa [Bool.and_comm] using hr
  · refine (AllocatedBit.nor_cmp (known_not_bit.mp ha) (known_not_bit.mp hb)).map
      fun r cs' _ hr => ?_
    simpa using hr
  all_goals bool_const_cmp ha hb

/-! ### enforce_equal -/

theorem rep_iff_val {w : Index → F} {b : Boolean} {x : Bool} :
    b.Rep w x ↔ b.val w = if x then 1 else 0 := Iff.rfl

/-- What the constraint of `enforce_equal` says. -/
theorem enforceEqual_snd (a b : Boolean) :
    Snd (Boolean.enforceEqual a b : Synth F Unit) (fun w _ => a.val w = b.val w) := by
  have lc1 : ∀ (w : Index → F), w .one = 1 → ∀ (b : Boolean), (b.lc (1 : F)).eval w = b.val w :=
    fun w h1 b => by rw [eval_lc w h1, one_mul]
  rcases a with a | a | (_ | _) <;> rcases b with b | b | (_ | _) <;>
    simp only [Boolean.enforceEqual] <;>
    first
    | exact Snd.pure fun w _ => rfl
    | exact Snd.fail _ _
    | exact Snd.pure (a := ()) fun w _ => trivial
    | (rw [if_pos trivial]; exact Snd.pure fun w _ => trivial)
    | (refine (Snd.enforce _ _ _).weaken fun w h1 _ he => ?_
       simp only [LC.eval_zero, LC.eval_sub, LC.eval_addVar, h1, lc1 w h1, mul_zero,
         zero_add] at he
       simp only [val] at he ⊢
       try simp only [if_true, Bool.false_eq_true, if_false]
       first
       | linear_combination he
       | linear_combination -he)

theorem enforceEqual_cmp {cs : CS F} {a b : Boolean} {x : Bool} (ha : a.Known cs x)
    (hb : b.Known cs x) : Cmp cs (Boolean.enforceEqual a b : Synth F Unit) (fun _ _ => True) := by
  have lc1 : ∀ (w : Index → F), w .one = 1 → ∀ (b : Boolean), (b.lc (1 : F)).eval w = b.val w :=
    fun w h1 b => by rw [eval_lc w h1, one_mul]
  rcases a with a | a | (_ | _) <;> rcases b with b | b | (_ | _) <;>
    simp only [Boolean.enforceEqual] <;>
    first
    | (refine Cmp.enforce fun w h1 hw => ?_
       have h2 := (ha.2 w hw)
       have h3 := (hb.2 w hw)
       simp only [rep_iff_val] at h2 h3
       simp only [LC.eval_zero, LC.eval_sub, LC.eval_addVar, h1, lc1 w h1, mul_zero,
         zero_add, h2, h3, sub_self]
       first
       | (have hxc := known_constant_iff ha; subst hxc; simp)
       | (have hxc := known_constant_iff hb; subst hxc; simp)
       | done)
    | exact Cmp.pure trivial
    | (exfalso
       have h1 := known_constant_iff ha
       have h2 := known_constant_iff hb
       simp_all)

theorem enforceEqual_sat (a b : Boolean) (cs cs' : CS F)
    (hrun : Boolean.enforceEqual a b cs = .ok ((), cs')) (w : Index → F) (h1 : w .one = 1)
    (hs : cs.Sat w) (hv : a.val w = b.val w) : cs'.Sat w := by
  have lc1 : ∀ (b : Boolean), (b.lc (1 : F)).eval w = b.val w :=
    fun b => by rw [eval_lc w h1, one_mul]
  rcases a with a | a | (_ | _) <;> rcases b with b | b | (_ | _) <;>
    simp only [Boolean.enforceEqual] at hrun <;>
    first
    | (obtain ⟨_, rfl⟩ := Synth.pure_ok.mp hrun; exact hs)
    | (simp [failS] at hrun; done)
    | (simp only [enforce, Except.ok.injEq, Prod.mk.injEq, true_and] at hrun
       subst hrun
       intro k hk
       simp only [List.mem_append, List.mem_singleton] at hk
       rcases hk with hk | rfl
       · exact hs k hk
       · simp only [R1C.Holds, LC.eval_zero, LC.eval_sub, LC.eval_addVar, h1, lc1, mul_zero,
           zero_add, hv, sub_self]
         try (rw [← hv]; simp [val]; done)
         try simp [val])

/-! ### ch and maj -/

theorem sha256ChAlloc_snd (v : Option Bool) (a b c : Boolean) :
    Snd (sha256ChAlloc v a b c : Synth F Boolean) (fun w r => ∀ x y z,
      a.Rep w x → b.Rep w y → c.Rep w z → r.Rep w (if x then y else z)) := by
  unfold sha256ChAlloc
  refine (Snd.alloc _).bind fun var => (Snd.enforce _ _ _).bind fun _ => Snd.pure ?_
  intro w h1 he _ x y z hx hy hz
  simp only [LC.eval_zero, LC.eval_sub, LC.eval_addVar, eval_lc w h1, one_mul, zero_add] at he
  rw [rep_iff_val] at hx hy hz ⊢
  rw [hx, hy, hz] at he
  simp only [val]
  cases x <;> cases y <;> cases z <;> simp at he ⊢ <;>
    first | linear_combination he | linear_combination -he

theorem sha256MajAlloc_snd (v : Option Bool) (a b c : Boolean) :
    Snd (sha256MajAlloc v a b c : Synth F Boolean) (fun w r => ∀ x y z,
      a.Rep w x → b.Rep w y → c.Rep w z → r.Rep w (majFn x y z)) := by
  unfold sha256MajAlloc
  refine (Snd.alloc _).bind fun var => (and_snd b c).bind fun bc =>
    (Snd.enforce _ _ _).bind fun _ => Snd.pure ?_
  intro w h1 he hbc _ x y z hx hy hz
  have hbc := hbc y z hy hz
  simp only [LC.eval_zero, LC.eval_sub, LC.eval_add, LC.eval_subVar, eval_lc w h1, one_mul,
    zero_add] at he
  rw [rep_iff_val] at hx hy hz hbc ⊢
  rw [hx, hy, hz, hbc] at he
  simp only [val]
  cases x <;> cases y <;> cases z <;> simp [majFn] at he ⊢ <;>
    first | linear_combination he | linear_combination -he

theorem rep_congr {w : Index → F} {b : Boolean} {x y : Bool} (h : b.Rep w x) (e : x = y) :
    b.Rep w y := e ▸ h

theorem known_congr {cs : CS F} {b : Boolean} {x y : Bool} (h : b.Known cs x) (e : x = y) :
    b.Known cs y := e ▸ h

theorem chFn_eq (x y z : Bool) : chFn x y z = if x then y else z := by
  cases x <;> cases y <;> cases z <;> rfl

theorem sha256Ch_snd (a b c : Boolean) :
    Snd (sha256Ch a b c : Synth F Boolean) (fun w r => ∀ x y z,
      a.Rep w x → b.Rep w y → c.Rep w z → r.Rep w (if x then y else z)) := by
  unfold sha256Ch
  split
  · refine Snd.pure fun w _ x y z hx hy hz => ?_
    simp only [rep_constant] at *
    subst hx hy hz
    rw [chFn_eq]
  · refine Snd.pure fun w _ x y z hx hy hz => ?_
    simp only [rep_constant] at hx
    subst hx
    exact hz
  · refine (and_snd _ _).weaken fun w _ r hr x y z hx hy hz => ?_
    simp only [rep_constant] at hy
    subst hy
    exact rep_congr (hr _ _ hx.not hz) (by cases x <;> simp)
  · refine (and_snd _ _).weaken fun w _ r hr x y z hx hy hz => ?_
    simp only [rep_constant] at hz
    subst hz
    exact rep_congr (hr _ _ hx hy) (by cases x <;> simp)
  · refine (and_snd _ _).map fun w _ r hr x y z hx hy hz => ?_
    simp only [rep_constant] at hz
    subst hz
    exact rep_congr (hr _ _ hx hy.not).not (by cases x <;> simp)
  · refine (and_snd _ _).map fun w _ r hr x y z hx hy hz => ?_
    simp only [rep_constant] at hy
    subst hy
    exact rep_congr (hr _ _ hx.not hz.not).not (by cases x <;> simp)
  · exact sha256ChAlloc_snd _ _ _ _

theorem sha256Maj_snd (a b c : Boolean) :
    Snd (sha256Maj a b c : Synth F Boolean) (fun w r => ∀ x y z,
      a.Rep w x → b.Rep w y → c.Rep w z → r.Rep w (majFn x y z)) := by
  unfold sha256Maj
  split
  · refine Snd.pure fun w _ x y z hx hy hz => ?_
    simp only [rep_constant] at *
    subst hx hy hz
    rfl
  · refine (and_snd _ _).weaken fun w _ r hr x y z hx hy hz => ?_
    simp only [rep_constant] at hx
    subst hx
    exact rep_congr (hr _ _ hy hz) (by simp [majFn])
  · refine (and_snd _ _).weaken fun w _ r hr x y z hx hy hz => ?_
    simp only [rep_constant] at hy
    subst hy
    exact rep_congr (hr _ _ hx hz) (by simp [majFn])
  · refine (and_snd _ _).weaken fun w _ r hr x y z hx hy hz => ?_
    simp only [rep_constant] at hz
    subst hz
    exact rep_congr (hr _ _ hx hy) (by simp [majFn])
  · refine (and_snd _ _).map fun w _ r hr x y z hx hy hz => ?_
    simp only [rep_constant] at hz
    subst hz
    exact rep_congr (hr _ _ hx.not hy.not).not (by cases x <;> cases y <;> rfl)
  · refine (and_snd _ _).map fun w _ r hr x y z hx hy hz => ?_
    simp only [rep_constant] at hy
    subst hy
    exact rep_congr (hr _ _ hx.not hz.not).not (by cases x <;> cases z <;> rfl)
  · refine (and_snd _ _).map fun w _ r hr x y z hx hy hz => ?_
    simp only [rep_constant] at hx
    subst hx
    exact rep_congr (hr _ _ hy.not hz.not).not (by cases y <;> cases z <;> rfl)
  · exact sha256MajAlloc_snd _ _ _ _

theorem triValue_known {cs : CS F} (op : Bool → Bool → Bool → Bool) {a b c : Boolean}
    {x y z : Bool} (ha : a.Known cs x) (hb : b.Known cs y) (hc : c.Known cs z) :
    triValue op a b c = some (op x y z) := by
  simp [triValue, ha.1, hb.1, hc.1]

theorem sha256ChAlloc_cmp {cs : CS F} {a b c : Boolean} {x y z : Bool} (ha : a.Known cs x)
    (hb : b.Known cs y) (hc : c.Known cs z) :
    Cmp cs (sha256ChAlloc (triValue chFn a b c) a b c : Synth F Boolean)
      (fun r cs' => r.Known cs' (if x then y else z)) := by
  rw [triValue_known chFn ha hb hc, ← chFn_eq]
  unfold sha256ChAlloc
  refine (Cmp.alloc (v := boolF (chFn x y z)) rfl).bind fun var cs1 e1 h1 => ?_
  refine (Cmp.enforce ?_).bind fun _ cs2 e2 _ => Cmp.pure (known_is fun w hw => h1 w (e2.agrees hw))
  intro w ho hw
  have h2 := (ha.mono e1).2 w hw
  have h3 := (hb.mono e1).2 w hw
  have h4 := (hc.mono e1).2 w hw
  rw [rep_iff_val] at h2 h3 h4
  simp only [LC.eval_zero, LC.eval_sub, LC.eval_addVar, eval_lc w ho, one_mul, zero_add, h1 w hw,
    h2, h3, h4, boolF_eq]
  cases x <;> cases y <;> cases z <;> simp [chFn]

theorem sha256MajAlloc_cmp {cs : CS F} {a b c : Boolean} {x y z : Bool} (ha : a.Known cs x)
    (hb : b.Known cs y) (hc : c.Known cs z) :
    Cmp cs (sha256MajAlloc (triValue majFn a b c) a b c : Synth F Boolean)
      (fun r cs' => r.Known cs' (majFn x y z)) := by
  rw [triValue_known majFn ha hb hc]
  unfold sha256MajAlloc
  refine (Cmp.alloc (v := boolF (majFn x y z)) rfl).bind fun var cs1 e1 h1 => ?_
  refine (and_cmp (hb.mono e1) (hc.mono e1)).bind fun bc cs2 e2 hbc => ?_
  refine (Cmp.enforce ?_).bind fun _ cs3 e3 _ =>
    Cmp.pure (known_is fun w hw => h1 w ((e2.trans e3).agrees hw))
  intro w ho hw
  have h2 := (ha.mono (e1.trans e2)).2 w hw
  have h3 := (hb.mono (e1.trans e2)).2 w hw
  have h4 := (hc.mono (e1.trans e2)).2 w hw
  have h5 := hbc.2 w hw
  rw [rep_iff_val] at h2 h3 h4 h5
  simp only [LC.eval_zero, LC.eval_sub, LC.eval_add, LC.eval_subVar, eval_lc w ho, one_mul,
    zero_add, h1 w (e2.agrees hw), h2, h3, h4, h5, boolF_eq]
  cases x <;> cases y <;> cases z <;> simp [majFn]

theorem sha256Ch_cmp {cs : CS F} {a b c : Boolean} {x y z : Bool} (ha : a.Known cs x)
    (hb : b.Known cs y) (hc : c.Known cs z) :
    Cmp cs (sha256Ch a b c : Synth F Boolean)
      (fun r cs' => r.Known cs' (if x then y else z)) := by
  unfold sha256Ch
  split
  · have h1 := known_constant_iff ha
    have h2 := known_constant_iff hb
    have h3 := known_constant_iff hc
    subst h1 h2 h3
    exact Cmp.pure (known_congr (known_constant _) (chFn_eq _ _ _))
  · have h1 := known_constant_iff ha
    subst h1
    exact Cmp.pure hc
  · have h1 := known_constant_iff hb
    subst h1
    exact (and_cmp ha.not hc).weaken fun r cs' _ hr => known_congr hr (by cases x <;> simp)
  · have h1 := known_constant_iff hc
    subst h1
    exact (and_cmp ha hb).weaken fun r cs' _ hr => known_congr hr (by cases x <;> simp)
  · have h1 := known_constant_iff hc
    subst h1
    exact (and_cmp ha hb.not).map fun r cs' _ hr => known_congr hr.not (by cases x <;> simp)
  · have h1 := known_constant_iff hb
    subst h1
    exact (and_cmp ha.not hc.not).map fun r cs' _ hr => known_congr hr.not (by cases x <;> simp)
  · exact sha256ChAlloc_cmp ha hb hc

theorem sha256Maj_cmp {cs : CS F} {a b c : Boolean} {x y z : Bool} (ha : a.Known cs x)
    (hb : b.Known cs y) (hc : c.Known cs z) :
    Cmp cs (sha256Maj a b c : Synth F Boolean)
      (fun r cs' => r.Known cs' (majFn x y z)) := by
  unfold sha256Maj
  split
  · have h1 := known_constant_iff ha
    have h2 := known_constant_iff hb
    have h3 := known_constant_iff hc
    subst h1 h2 h3
    exact Cmp.pure (known_constant _)
  · have h1 := known_constant_iff ha
    subst h1
    exact (and_cmp hb hc).weaken fun r cs' _ hr => known_congr hr (by simp [majFn])
  · have h1 := known_constant_iff hb
    subst h1
    exact (and_cmp ha hc).weaken fun r cs' _ hr => known_congr hr (by simp [majFn])
  · have h1 := known_constant_iff hc
    subst h1
    exact (and_cmp ha hb).weaken fun r cs' _ hr => known_congr hr (by simp [majFn])
  · have h1 := known_constant_iff hc
    subst h1
    exact (and_cmp ha.not hb.not).map fun r cs' _ hr =>
      known_congr hr.not (by cases x <;> cases y <;> rfl)
  · have h1 := known_constant_iff hb
    subst h1
    exact (and_cmp ha.not hc.not).map fun r cs' _ hr =>
      known_congr hr.not (by cases x <;> cases z <;> rfl)
  · have h1 := known_constant_iff ha
    subst h1
    exact (and_cmp hb.not hc.not).map fun r cs' _ hr =>
      known_congr hr.not (by cases y <;> cases z <;> rfl)
  · exact sha256MajAlloc_cmp ha hb hc

end Boolean

/-! ### Lists of allocated bits -/

theorem allocBits_snd (vs : List (Option Bool)) :
    Snd (allocBits vs : Synth F (List AllocatedBit)) (fun w bs => bs.length = vs.length ∧
      ∀ b ∈ bs, ∃ x, (Boolean.is b).Rep w x) := by
  induction vs with
  | nil => exact Snd.pure fun w _ => ⟨rfl, by simp⟩
  | cons v vs ih =>
    refine (AllocatedBit.alloc_snd v).bind fun b => ih.map fun w _ bs hbs hb => ⟨by simp [hbs.1], ?_⟩
    intro b' hb'
    rcases List.mem_cons.mp hb' with rfl | h
    · exact hb
    · exact hbs.2 b' h

theorem allocBits_cmp (vs : List Bool) : ∀ {cs : CS F},
    Cmp cs (allocBits (vs.map some) : Synth F (List AllocatedBit)) (fun bs cs' =>
      bs.length = vs.length ∧
      ∀ (i : Nat) (b : AllocatedBit) (v : Bool), bs[i]? = some b → vs[i]? = some v →
        (Boolean.is b).Known cs' v) := by
  induction vs with
  | nil => intro cs; exact Cmp.pure ⟨rfl, by simp⟩
  | cons v vs ih =>
    intro cs
    refine (AllocatedBit.alloc_cmp v).bind fun b cs1 e1 hb => ih.map fun bs cs2 e2 hbs => ?_
    refine ⟨by simp [hbs.1], fun i b' v' hb' hv' => ?_⟩
    cases i with
    | zero =>
      simp only [List.getElem?_cons_zero, Option.some.injEq] at hb' hv'
      subst hb' hv'
      exact hb.mono e2
    | succ i =>
      simp only [List.getElem?_cons_succ] at hb' hv'
      exact hbs.2 i b' v' hb' hv'

theorem fieldInto_snd (n : Nat) (repr : F → Nat) (v : Option F) :
    Snd (fieldIntoBooleanVecLe n repr v : Synth F (List Boolean))
      (fun w bits => ∀ b ∈ bits, ∃ x, b.Rep w x) := by
  unfold fieldIntoBooleanVecLe fieldIntoAllocatedBitsLe
  refine (allocBits_snd _).map fun w _ bs hbs b hb => ?_
  obtain ⟨b', hb', rfl⟩ := List.mem_map.mp hb
  exact hbs.2 b' hb'

theorem fieldInto_cmp {cs : CS F} (n : Nat) (repr : F → Nat) (v : F) :
    Cmp cs (fieldIntoBooleanVecLe n repr (some v) : Synth F (List Boolean))
      (fun bits cs' => bits.length = n ∧
        ∀ (i : Nat) (b : Boolean), bits[i]? = some b → b.Known cs' ((repr v).testBit i)) := by
  unfold fieldIntoBooleanVecLe fieldIntoAllocatedBitsLe
  have e : ((List.range n).map fun i => some ((repr v).testBit i)) =
      ((List.range n).map fun i => (repr v).testBit i).map some := by simp
  simp only [e]
  refine (allocBits_cmp _).map fun bs cs' _ hbs => ?_
  have hl : bs.length = n := by simpa using hbs.1
  refine ⟨by simpa using hl, fun i b hb => ?_⟩
  rw [List.getElem?_map] at hb
  cases h : bs[i]? with
  | none => simp [h] at hb
  | some b' =>
    simp only [h, Option.map_some, Option.some.injEq] at hb
    subst hb
    have hi : i < bs.length := by
      rcases Nat.lt_or_ge i bs.length with h' | h'
      · exact h'
      · simp [List.getElem?_eq_none h'] at h
    exact hbs.2 i b' _ h (by simp [List.getElem?_range (hl ▸ hi)])

/-- The assignment that is zero on all auxiliary variables and one on the inputs. -/
def zeroAux : Index → F
  | .input _ => 1
  | .aux _ => 0

theorem allocBits_zero (vs : List (Option Bool)) : ∀ (cs cs' : CS F) (bs : List AllocatedBit),
    allocBits vs cs = .ok (bs, cs') → cs.Sat zeroAux →
    cs'.Sat zeroAux ∧ ∀ b ∈ bs, (zeroAux b.variable_ : F) = 0 := by
  induction vs with
  | nil =>
    intro cs cs' bs h hs
    obtain ⟨rfl, rfl⟩ := Synth.pure_ok.mp h
    exact ⟨hs, by simp⟩
  | cons v vs ih =>
    intro cs cs' bs h hs
    obtain ⟨b, cs1, h1, h⟩ := Synth.bind_ok.mp h
    obtain ⟨bs', cs2, h2, h⟩ := Synth.bind_ok.mp h
    obtain ⟨rfl, rfl⟩ := Synth.pure_ok.mp h
    have hb : cs1.Sat zeroAux ∧ (zeroAux b.variable_ : F) = 0 := by
      obtain ⟨var, cs3, h3, h4⟩ := Synth.bind_ok.mp h1
      obtain ⟨u, cs4, h6, h5⟩ := Synth.bind_ok.mp h4
      obtain ⟨rfl, rfl⟩ := Synth.pure_ok.mp h5
      have hv : (zeroAux var : F) = 0 ∧ cs3.constraints = cs.constraints := by
        unfold Zkp.alloc at h3
        split at h3
        · split at h3
          · simp at h3
          · simp only [Except.ok.injEq, Prod.mk.injEq] at h3
            obtain ⟨rfl, rfl⟩ := h3
            exact ⟨rfl, rfl⟩
        · simp only [Except.ok.injEq, Prod.mk.injEq] at h3
          obtain ⟨rfl, rfl⟩ := h3
          exact ⟨rfl, rfl⟩
      rw [enforce_ok] at h6
      subst h6
      refine ⟨?_, hv.1⟩
      intro k hk
      simp only [List.mem_append, List.mem_singleton] at hk
      rcases hk with hk | rfl
      · exact hs k (hv.2 ▸ hk)
      · simp [R1C.Holds, hv.1]
    obtain ⟨s2, z2⟩ := ih _ _ _ h2 hb.1
    refine ⟨s2, fun b' hb' => ?_⟩
    rcases List.mem_cons.mp hb' with rfl | h
    · exact hb.2
    · exact z2 b' h

theorem fieldInto_zero (n : Nat) (repr : F → Nat) (v : F) (bits : List Boolean) (cs' : CS F)
    (h : fieldIntoBooleanVecLe n repr (some v) (CS.new true) = .ok (bits, cs')) :
    ∃ w : Index → F, w .one = 1 ∧ cs'.Sat w ∧ ∀ b ∈ bits, b.val w = 0 := by
  obtain ⟨bs, cs1, h1, h2⟩ := Synth.bind_ok.mp h
  obtain ⟨rfl, rfl⟩ := Synth.pure_ok.mp h2
  obtain ⟨s, z⟩ := allocBits_zero _ _ _ _ h1 (by intro k hk; simp [CS.new] at hk)
  refine ⟨zeroAux, rfl, s, fun b hb => ?_⟩
  obtain ⟨b', hb', rfl⟩ := List.mem_map.mp hb
  exact z b' hb'

end Zkp
