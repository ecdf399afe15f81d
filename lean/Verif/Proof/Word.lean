/- Bit lists, 32-bit words, and the word gadgets that do not add. -/
import Verif.Proof.Boolean
import Mathlib.Tactic.Push
import Mathlib.Data.Nat.Bitwise

set_option linter.unusedSectionVars false
set_option linter.unusedSimpArgs false

namespace Zkp

variable {F : Type} [Field F]

/-- The number with the given bits, least significant first. -/
def natOf : List Bool → Nat
  | [] => 0
  | b :: bs => b.toNat + 2 * natOf bs

theorem natOf_lt (l : List Bool) : natOf l < 2 ^ l.length := by
  induction l with
  | nil => simp [natOf]
  | cons b bs ih =>
    simp only [natOf, List.length_cons, Nat.pow_succ]
    have : b.toNat ≤ 1 := by cases b <;> simp
    omega

theorem testBit_natOf (l : List Bool) (i : Nat) : (natOf l).testBit i = l.getD i false := by
  induction l generalizing i with
  | nil => simp [natOf]
  | cons b bs ih =>
    cases i with
    | zero => cases b <;> simp [natOf, Nat.testBit_zero] <;> omega
    | succ i =>
      have h : (b.toNat + 2 * natOf bs) / 2 = natOf bs := by
        have : b.toNat ≤ 1 := by cases b <;> simp
        omega
      simp only [natOf, Nat.testBit_succ, h, ih, List.getD_cons_succ]

theorem natOf_append (a b : List Bool) : natOf (a ++ b) = natOf a + 2 ^ a.length * natOf b := by
  induction a with
  | nil => simp [natOf]
  | cons x xs ih =>
    simp only [List.cons_append, natOf, ih, List.length_cons, Nat.pow_succ]; ring

theorem natOf_take (l : List Bool) (n : Nat) : natOf (l.take n) = natOf l % 2 ^ n := by
  induction l generalizing n with
  | nil => simp [natOf]
  | cons b bs ih =>
    cases n with
    | zero => simp [natOf, Nat.mod_one]
    | succ n =>
      simp only [List.take_succ_cons, natOf, ih]
      have : b.toNat ≤ 1 := by cases b <;> simp
      have h1 : 0 < 2 ^ n := Nat.two_pow_pos n
      have h2 : natOf bs % 2 ^ n < 2 ^ n := Nat.mod_lt _ h1
      have h3 := Nat.div_add_mod (natOf bs) (2 ^ n)
      have h4 : b.toNat + 2 * natOf bs =
          (b.toNat + 2 * (natOf bs % 2 ^ n)) + 2 ^ (n + 1) * (natOf bs / 2 ^ n) := by
        rw [Nat.pow_succ]
        calc b.toNat + 2 * natOf bs
            = b.toNat + 2 * (2 ^ n * (natOf bs / 2 ^ n) + natOf bs % 2 ^ n) := by rw [h3]
          _ = _ := by ring
      have h5 : b.toNat + 2 * (natOf bs % 2 ^ n) < 2 ^ (n + 1) := by
        rw [Nat.pow_succ]; omega
      rw [h4, Nat.add_mul_mod_self_left, Nat.mod_eq_of_lt h5]

open Classical in
/-- The bit a Boolean stands for, if it stands for one. -/
noncomputable def Boolean.bit (w : Index → F) (b : Boolean) : Bool := decide (b.val w = 1)

/-- The Boolean stands for a bit. -/
def Boolean.IsB (w : Index → F) (b : Boolean) : Prop := b.val w = 0 ∨ b.val w = 1

theorem Boolean.rep_iff (w : Index → F) (b : Boolean) (x : Bool) :
    b.Rep w x ↔ b.IsB w ∧ b.bit w = x := by
  unfold Rep IsB bit
  constructor
  · intro h; rw [h]; cases x <;> simp
  · rintro ⟨h | h, rfl⟩ <;> rw [h] <;> simp

theorem Boolean.IsB.rep {w : Index → F} {b : Boolean} (h : b.IsB w) : b.Rep w (b.bit w) :=
  (rep_iff w b _).mpr ⟨h, rfl⟩

theorem Boolean.Rep.isB {w : Index → F} {b : Boolean} {x : Bool} (h : b.Rep w x) : b.IsB w :=
  ((rep_iff w b x).mp h).1

theorem Boolean.Rep.bit_eq {w : Index → F} {b : Boolean} {x : Bool} (h : b.Rep w x) :
    b.bit w = x := ((rep_iff w b x).mp h).2

theorem Boolean.IsB.val_eq {w : Index → F} {b : Boolean} (h : b.IsB w) :
    b.val w = ((b.bit w).toNat : F) := by
  have := h.rep
  rw [rep_iff_val] at this
  rw [this]
  cases b.bit w <;> simp

theorem Boolean.Compat.not {b : Boolean} {x : Bool} (h : b.Compat x) : b.not.Compat (!x) := by
  intro c hc
  cases b with
  | is v => simp [Boolean.not] at hc
  | not_ v => simp [Boolean.not] at hc
  | constant d =>
    simp only [Boolean.not, Boolean.constant.injEq] at hc
    rw [← hc, h d rfl]

theorem Boolean.compat_is (b : AllocatedBit) (x : Bool) : (Boolean.is b).Compat x := by
  intro c hc; simp at hc

theorem Boolean.compat_not (b : AllocatedBit) (x : Bool) : (Boolean.not_ b).Compat x := by
  intro c hc; simp at hc

theorem Boolean.compat_constant (c : Bool) : (Boolean.constant c).Compat c := by
  intro d hd; simp at hd; exact hd.symm

theorem Snd.true {α : Type} {m : Synth F α} {P : (Index → F) → α → Prop} (h : Snd m P) :
    Snd m (fun _ _ => True) := h.weaken fun _ _ _ _ => trivial

theorem Snd.and {α : Type} {m : Synth F α} {P Q : (Index → F) → α → Prop} (h : Snd m P)
    (h' : Snd m Q) : Snd m (fun w a => P w a ∧ Q w a) := fun cs a cs' hr =>
  ⟨(h cs a cs' hr).1, fun w h1 hs => ⟨(h cs a cs' hr).2 w h1 hs, (h' cs a cs' hr).2 w h1 hs⟩⟩

namespace Boolean

/-- Closes goals `Compat r f` for a constant or non-constant `r`. -/
macro "compat_tac" : tactic => `(tactic| (
  intro c hc
  simp_all [Boolean.Compat, Boolean.not]))

theorem xor_compat (a b : Boolean) (x y : Bool) (ha : a.Compat x) (hb : b.Compat y) :
    Snd (Boolean.xor a b : Synth F Boolean) (fun _ r => r.Compat (x ^^ y)) := by
  rcases a with a | a | (_ | _) <;> rcases b with b | b | (_ | _) <;> simp only [Boolean.xor] <;>
    first
    | exact Snd.map (AllocatedBit.xor_snd _ _) fun _ _ _ _ => Boolean.compat_is _ _
    | exact Snd.map (AllocatedBit.xor_snd _ _) fun _ _ _ _ => Boolean.compat_not _ _
    | (refine Snd.pure fun _ _ => ?_; compat_tac)

theorem and_compat (a b : Boolean) (x y : Bool) (ha : a.Compat x) (hb : b.Compat y) :
    Snd (Boolean.and a b : Synth F Boolean) (fun _ r => r.Compat (x && y)) := by
  rcases a with a | a | (_ | _) <;> rcases b with b | b | (_ | _) <;> simp only [Boolean.and]
  · exact Snd.map (AllocatedBit.and_snd _ _) fun _ _ _ _ => Boolean.compat_is _ _
  · exact Snd.map (AllocatedBit.andNot_snd _ _) fun _ _ _ _ => Boolean.compat_is _ _
  · refine Snd.pure fun _ _ => ?_; compat_tac
  · refine Snd.pure fun _ _ => ?_; compat_tac
  · exact Snd.map (AllocatedBit.andNot_snd _ _) fun _ _ _ _ => Boolean.compat_is _ _
  · exact Snd.map (AllocatedBit.nor_snd _ _) fun _ _ _ _ => Boolean.compat_is _ _
  all_goals
    refine Snd.pure fun _ _ => ?_
    compat_tac

theorem compat_congr {b : Boolean} {x y : Bool} (h : b.Compat x) (e : x = y) : b.Compat y := e ▸ h

theorem sha256Ch_compat (a b c : Boolean) (x y z : Bool) (ha : a.Compat x) (hb : b.Compat y)
    (hc : c.Compat z) :
    Snd (sha256Ch a b c : Synth F Boolean) (fun _ r => r.Compat (if x then y else z)) := by
  unfold sha256Ch
  split
  · have h1 := ha _ rfl
    have h2 := hb _ rfl
    have h3 := hc _ rfl
    subst h1 h2 h3
    exact Snd.pure fun _ _ => compat_congr (compat_constant _) (chFn_eq _ _ _)
  · have h1 := ha _ rfl
    subst h1
    exact Snd.pure fun _ _ => hc
  · have h1 := hb _ rfl
    subst h1
    exact (and_compat _ _ _ _ ha.not hc).weaken fun _ _ _ h => compat_congr h (by cases x <;> simp)
  · have h1 := hc _ rfl
    subst h1
    exact (and_compat _ _ _ _ ha hb).weaken fun _ _ _ h => compat_congr h (by cases x <;> simp)
  · have h1 := hc _ rfl
    subst h1
    exact (and_compat _ _ _ _ ha hb.not).map fun _ _ _ h =>
      compat_congr h.not (by cases x <;> simp)
  · have h1 := hb _ rfl
    subst h1
    exact (and_compat _ _ _ _ ha.not hc.not).map fun _ _ _ h =>
      compat_congr h.not (by cases x <;> simp)
  · unfold sha256ChAlloc
    exact (Snd.alloc _).bind fun _ => (Snd.enforce _ _ _).bind fun _ =>
      Snd.pure fun _ _ _ _ => compat_is _ _

theorem sha256Maj_compat (a b c : Boolean) (x y z : Bool) (ha : a.Compat x) (hb : b.Compat y)
    (hc : c.Compat z) :
    Snd (sha256Maj a b c : Synth F Boolean) (fun _ r => r.Compat (majFn x y z)) := by
  unfold sha256Maj
  split
  · have h1 := ha _ rfl
    have h2 := hb _ rfl
    have h3 := hc _ rfl
    subst h1 h2 h3
    exact Snd.pure fun _ _ => compat_constant _
  · have h1 := ha _ rfl
    subst h1
    exact (and_compat _ _ _ _ hb hc).weaken fun _ _ _ h => compat_congr h (by simp [majFn])
  · have h1 := hb _ rfl
    subst h1
    exact (and_compat _ _ _ _ ha hc).weaken fun _ _ _ h => compat_congr h (by simp [majFn])
  · have h1 := hc _ rfl
    subst h1
    exact (and_compat _ _ _ _ ha hb).weaken fun _ _ _ h => compat_congr h (by simp [majFn])
  · have h1 := hc _ rfl
    subst h1
    exact (and_compat _ _ _ _ ha.not hb.not).map fun _ _ _ h =>
      compat_congr h.not (by cases x <;> cases y <;> rfl)
  · have h1 := hb _ rfl
    subst h1
    exact (and_compat _ _ _ _ ha.not hc.not).map fun _ _ _ h =>
      compat_congr h.not (by cases x <;> cases z <;> rfl)
  · have h1 := ha _ rfl
    subst h1
    exact (and_compat _ _ _ _ hb.not hc.not).map fun _ _ _ h =>
      compat_congr h.not (by cases y <;> cases z <;> rfl)
  · unfold sha256MajAlloc
    exact (Snd.alloc _).bind fun _ => (and_snd _ _).bind fun _ => (Snd.enforce _ _ _).bind fun _ =>
      Snd.pure fun _ _ _ _ _ => compat_is _ _

end Boolean

/-! ### Words -/

namespace UInt32G

/-- The word a gadget word stands for. -/
noncomputable def word (w : Index → F) (u : UInt32G) : BitVec 32 :=
  BitVec.ofNat 32 (natOf (u.bits.map (Boolean.bit w)))

/-- The gadget word has 32 bits, each standing for a bit, and a consistent cached value. -/
structure IsW (w : Index → F) (u : UInt32G) : Prop where
  len : u.bits.length = 32
  isB : ∀ b ∈ u.bits, b.IsB w
  cons : u.Consistent

theorem getLsbD_word (w : Index → F) (u : UInt32G) (i : Nat) (hi : i < 32) (b : Boolean)
    (hb : u.bits[i]? = some b) : (word w u).getLsbD i = b.bit w := by
  unfold word
  rw [BitVec.getLsbD_ofNat, testBit_natOf]
  simp [hi, List.getD_eq_getElem?_getD, hb]

theorem toNat_word (w : Index → F) (u : UInt32G) (h : u.bits.length = 32) :
    (word w u).toNat = natOf (u.bits.map (Boolean.bit w)) := by
  unfold word
  rw [BitVec.toNat_ofNat, Nat.mod_eq_of_lt]
  have := natOf_lt (u.bits.map (Boolean.bit w))
  simpa [h] using this

theorem lt_of_getElem? {α : Type} {l : List α} {i : Nat} {a : α} (h : l[i]? = some a) :
    i < l.length := by
  rcases Nat.lt_or_ge i l.length with h' | h'
  · exact h'
  · simp [List.getElem?_eq_none h'] at h

theorem exists_getElem? {α : Type} {l : List α} {i : Nat} (h : i < l.length) :
    ∃ a, l[i]? = some a := ⟨l[i], List.getElem?_eq_getElem h⟩

theorem word_eq_iff {w : Index → F} {u : UInt32G} (h : u.bits.length = 32) (x : BitVec 32) :
    word w u = x ↔ ∀ (i : Nat) (b : Boolean), u.bits[i]? = some b → b.bit w = x.getLsbD i := by
  constructor
  · rintro rfl i b hb
    exact (getLsbD_word w u i (h ▸ lt_of_getElem? hb) b hb).symm
  · intro hx
    apply BitVec.eq_of_getLsbD_eq
    intro i hi
    obtain ⟨b, hb⟩ := exists_getElem? (l := u.bits) (i := i) (h ▸ hi)
    rw [getLsbD_word w u i hi b hb, hx i b hb]

theorem rep_iff (w : Index → F) (u : UInt32G) (x : BitVec 32) :
    u.Rep w x ↔ u.bits.length = 32 ∧ (∀ b ∈ u.bits, b.IsB w) ∧ word w u = x := by
  constructor
  · rintro ⟨hl, h⟩
    refine ⟨hl, fun b hb => ?_, (word_eq_iff hl x).mpr fun i b hb => (h i b hb).bit_eq⟩
    obtain ⟨i, hi⟩ := List.mem_iff_getElem?.mp hb
    exact (h i b hi).isB
  · rintro ⟨hl, h, hx⟩
    refine ⟨hl, fun i b hb => ?_⟩
    have := (word_eq_iff hl x).mp hx i b hb
    exact (Boolean.rep_iff w b _).mpr ⟨h b (List.mem_of_getElem? hb), this⟩

theorem IsW.rep {w : Index → F} {u : UInt32G} (h : u.IsW w) : u.Rep w (word w u) :=
  (rep_iff w u _).mpr ⟨h.len, h.isB, rfl⟩

theorem Rep.isW {w : Index → F} {u : UInt32G} {x : BitVec 32} (h : u.Rep w x)
    (hc : u.Consistent) : u.IsW w :=
  ⟨h.1, ((rep_iff w u x).mp h).2.1, hc⟩

theorem Rep.word_eq {w : Index → F} {u : UInt32G} {x : BitVec 32} (h : u.Rep w x) :
    word w u = x := ((rep_iff w u x).mp h).2.2

theorem denotes_iff (w : Index → F) (u : UInt32G) (x : BitVec 32) :
    u.Denotes w x ↔ u.IsW w ∧ word w u = x :=
  ⟨fun h => ⟨h.rep.isW h.consistent, h.rep.word_eq⟩,
   fun h => ⟨h.2 ▸ h.1.rep, h.1.cons⟩⟩

/-! constant -/

theorem constant_bits (v : BitVec 32) (i : Nat) (b : Boolean)
    (h : (constant v).bits[i]? = some b) : i < 32 ∧ b = .constant (v.getLsbD i) := by
  have hi : i < 32 := by simpa [constant] using lt_of_getElem? h
  simp [constant, List.getElem?_range hi] at h
  exact ⟨hi, h.symm⟩

theorem constant_rep (w : Index → F) (v : BitVec 32) : (constant v).Rep w v := by
  refine ⟨by simp [constant], fun i b hb => ?_⟩
  obtain ⟨_, rfl⟩ := constant_bits v i b hb
  exact Boolean.rep_constant.mpr rfl

theorem constant_consistent (v : BitVec 32) : (constant v).Consistent := by
  intro v' hv i b hb
  simp only [constant, Option.some.injEq] at hv
  subst hv
  obtain ⟨_, rfl⟩ := constant_bits v i b hb
  exact Boolean.compat_constant _

theorem constant_isW (w : Index → F) (v : BitVec 32) : (constant v).IsW w :=
  (constant_rep w v).isW (constant_consistent v)

theorem word_constant (w : Index → F) (v : BitVec 32) : word w (constant v) = v :=
  (constant_rep w v).word_eq

theorem constant_known (cs : CS F) (v : BitVec 32) : (constant v).Known cs v := by
  refine ⟨rfl, by simp [constant], fun i b hb => ?_⟩
  obtain ⟨_, rfl⟩ := constant_bits v i b hb
  exact Boolean.known_constant _

/-! alloc -/

theorem alloc_snd (v : Option (BitVec 32)) :
    Snd (alloc v : Synth F UInt32G) (fun w u => u.IsW w) := by
  unfold alloc
  refine (allocBits_snd _).map fun w _ bs hbs => ?_
  refine ⟨?_, ?_, ?_⟩
  · simp only [List.length_map]
    rw [hbs.1]
    cases v <;> simp
  · intro b hb
    obtain ⟨b', hb', rfl⟩ := List.mem_map.mp hb
    obtain ⟨x, hx⟩ := hbs.2 b' hb'
    exact hx.isB
  · intro v' _ i b hb
    rw [List.getElem?_map] at hb
    cases h : bs[i]? with
    | none => simp [h] at hb
    | some b' =>
      simp only [h, Option.map_some, Option.some.injEq] at hb
      subst hb
      exact Boolean.compat_is _ _

theorem alloc_cmp {cs : CS F} (v : BitVec 32) :
    Cmp cs (alloc (some v) : Synth F UInt32G) (fun u cs' => u.Known cs' v) := by
  unfold alloc
  have e : ((List.range 32).map fun i => some (v.getLsbD i)) =
      ((List.range 32).map fun i => v.getLsbD i).map some := by simp
  simp only [e]
  refine (allocBits_cmp _).map fun bs cs' _ hbs => ?_
  have hl : bs.length = 32 := by simpa using hbs.1
  refine ⟨rfl, by simpa using hl, fun i b hb => ?_⟩
  rw [List.getElem?_map] at hb
  cases h : bs[i]? with
  | none => simp [h] at hb
  | some b' =>
    simp only [h, Option.map_some, Option.some.injEq] at hb
    subst hb
    have hi := lt_of_getElem? h
    exact hbs.2 i b' _ h (by simp [List.getElem?_range (hl ▸ hi)])

/-! from bits -/

theorem bitsValue_reverse_cons (b : Boolean) (l : List Boolean) :
    bitsValue (b :: l).reverse =
      match bitsValue l.reverse, b.getValue with
      | some v, some true => some ((v <<< 1) ||| 1)
      | some v, some false => some (v <<< 1)
      | _, _ => none := by
  unfold bitsValue
  rw [List.reverse_cons, List.foldl_append]
  rfl

theorem bitsValue_step (b : Boolean) (l : List Boolean) :
    bitsValue (b :: l).reverse =
      (bitsValue l.reverse).bind fun v => b.getValue.map fun x =>
        (v <<< 1) ||| (if x then 1 else 0) := by
  rw [bitsValue_reverse_cons]
  cases bitsValue l.reverse with
  | none => rfl
  | some v =>
    cases b.getValue with
    | none => rfl
    | some x => cases x <;> simp

theorem shl_or_bit (v : BitVec 32) (x : Bool) (i : Nat) (hi : i < 32) :
    ((v <<< 1) ||| (if x then 1 else 0)).getLsbD i = if i = 0 then x else v.getLsbD (i - 1) := by
  have h1 : ((if x then 1 else 0 : BitVec 32)).getLsbD i = (decide (i = 0) && x) := by
    cases x with
    | false => simp
    | true =>
      simp only [if_true, Bool.and_true]
      rw [BitVec.ofNat_eq_ofNat, BitVec.getLsbD_one]
      simp
  rw [BitVec.getLsbD_or, BitVec.getLsbD_shiftLeft, h1]
  by_cases h : i = 0
  · subst h; simp
  · have : ¬ i < 1 := by omega
    simp [h, hi, this]

theorem bitsValue_spec (l : List Boolean) (v : BitVec 32) (h : bitsValue l.reverse = some v)
    (i : Nat) (hi : i < 32) (b : Boolean) (hb : l[i]? = some b) :
    b.getValue = some (v.getLsbD i) := by
  induction l generalizing v i with
  | nil => simp at hb
  | cons a as ih =>
    rw [bitsValue_step] at h
    cases hv : bitsValue as.reverse with
    | none => simp [hv] at h
    | some u =>
      cases hx : a.getValue with
      | none => simp [hv, hx] at h
      | some x =>
        simp only [hv, hx, Option.bind_some, Option.map_some, Option.some.injEq] at h
        subst h
        rw [shl_or_bit u x i hi]
        cases i with
        | zero =>
          simp only [List.getElem?_cons_zero, Option.some.injEq] at hb
          subst hb
          simpa using hx
        | succ i =>
          simp only [List.getElem?_cons_succ] at hb
          simpa using ih u hv i (by omega) hb

theorem bitsValue_some (l : List Boolean) (h : ∀ b ∈ l, b.getValue ≠ none) :
    ∃ v, bitsValue l.reverse = some v := by
  induction l with
  | nil => exact ⟨0, rfl⟩
  | cons a as ih =>
    obtain ⟨v, hv⟩ := ih fun b hb => h b (List.mem_cons_of_mem _ hb)
    have := h a List.mem_cons_self
    cases hx : a.getValue with
    | none => exact absurd hx this
    | some x => exact ⟨_, by rw [bitsValue_step, hv, hx]; rfl⟩

theorem compat_of_value {b : Boolean} {x : Bool} (h : b.getValue = some x) : b.Compat x := by
  intro c hc
  subst hc
  simpa [Boolean.getValue] using h

theorem fromBits_isW {bits : List Boolean} {u : UInt32G} (h : fromBits bits = some u)
    (w : Index → F) (hb : ∀ b ∈ bits, b.IsB w) : u.IsW w ∧ u.bits = bits := by
  unfold fromBits at h
  split at h
  · rename_i hl
    simp only [Option.some.injEq] at h
    subst h
    refine ⟨⟨hl, hb, fun v hv i b hi => ?_⟩, rfl⟩
    exact compat_of_value (bitsValue_spec bits v hv i (hl ▸ lt_of_getElem? hi) b hi)
  · simp at h

theorem fromBitsBe_isW {bits : List Boolean} {u : UInt32G} (h : fromBitsBe bits = some u)
    (w : Index → F) (hb : ∀ b ∈ bits, b.IsB w) : u.IsW w ∧ u.bits = bits.reverse := by
  unfold fromBitsBe at h
  split at h
  · rename_i hl
    simp only [Option.some.injEq] at h
    subst h
    refine ⟨⟨by simpa using hl, by simpa using hb, fun v hv i b hi => ?_⟩, rfl⟩
    have hv' : bitsValue bits.reverse.reverse = some v := by simpa using hv
    refine compat_of_value (bitsValue_spec bits.reverse v hv' i ?_ b hi)
    have := lt_of_getElem? hi
    simpa [hl] using this
  · simp at h

theorem fromBits_known {cs : CS F} {bits : List Boolean} (hl : bits.length = 32)
    (x : BitVec 32)
    (hb : ∀ (i : Nat) (b : Boolean), bits[i]? = some b → b.Known cs (x.getLsbD i)) :
    ∃ u, fromBits bits = some u ∧ u.Known cs x ∧ u.bits = bits := by
  obtain ⟨v, hv⟩ := bitsValue_some bits fun b h => by
    obtain ⟨i, hi⟩ := List.mem_iff_getElem?.mp h
    rw [(hb i b hi).1]; simp
  refine ⟨⟨bits, bitsValue bits.reverse⟩, by simp [fromBits, hl], ⟨?_, hl, hb⟩, rfl⟩
  simp only [hv, Option.some.injEq]
  apply BitVec.eq_of_getLsbD_eq
  intro i hi
  obtain ⟨b, hi'⟩ := exists_getElem? (l := bits) (i := i) (hl ▸ hi)
  have h1 := bitsValue_spec bits v hv i hi b hi'
  rw [(hb i b hi').1] at h1
  simpa using h1.symm

theorem fromBitsBe_known {cs : CS F} {bits : List Boolean} (hl : bits.length = 32)
    (x : BitVec 32)
    (hb : ∀ (i : Nat) (b : Boolean), bits.reverse[i]? = some b → b.Known cs (x.getLsbD i)) :
    ∃ u, fromBitsBe bits = some u ∧ u.Known cs x ∧ u.bits = bits.reverse := by
  obtain ⟨u, h1, h2, h3⟩ := fromBits_known (bits := bits.reverse) (by simpa using hl) x hb
  refine ⟨u, ?_, h2, h3⟩
  simp only [fromBits, fromBitsBe, List.length_reverse, List.reverse_reverse] at h1 ⊢
  exact h1

/-! rotation and shift -/

theorem rotr_bits (u : UInt32G) (k : Nat) (hl : u.bits.length = 32) (i : Nat) (b : Boolean)
    (hb : (u.rotr k).bits[i]? = some b) :
    i < 32 ∧ u.bits[(i + k % 32) % 32]? = some b := by
  have hk : k % 32 < 32 := Nat.mod_lt _ (by omega)
  simp only [rotr] at hb
  have hi : i < 32 := by
    have := lt_of_getElem? hb
    simp only [List.length_take] at this
    omega
  refine ⟨hi, ?_⟩
  rw [List.getElem?_take_of_lt hi] at hb
  by_cases h : i < 32 - k % 32
  · rw [List.getElem?_append_left (by simpa [hl] using h), List.getElem?_drop] at hb
    rw [Nat.mod_eq_of_lt (by omega), Nat.add_comm]; exact hb
  · rw [List.getElem?_append_right (by simpa [hl] using h)] at hb
    simp only [List.length_drop, hl] at hb
    have : (i + k % 32) % 32 = i - (32 - k % 32) := by omega
    rw [this]; exact hb

theorem rotr_length (u : UInt32G) (k : Nat) (hl : u.bits.length = 32) :
    (u.rotr k).bits.length = 32 := by
  simp [rotr, hl]

theorem rotateRight_bit (v : BitVec 32) (k i : Nat) (hi : i < 32) :
    (v.rotateRight (k % 32)).getLsbD i = v.getLsbD ((i + k % 32) % 32) := by
  have hk : k % 32 < 32 := Nat.mod_lt _ (by omega)
  rw [BitVec.getLsbD_rotateRight]
  by_cases h : i < 32 - k % 32 % 32
  · rw [decide_eq_true h, cond_true]
    congr 1
    omega
  · rw [decide_eq_false h, cond_false]
    have : (i + k % 32) % 32 = i - (32 - k % 32 % 32) := by omega
    rw [this]
    simp [hi]

theorem rotr_isW {w : Index → F} {u : UInt32G} (k : Nat) (h : u.IsW w) : (u.rotr k).IsW w := by
  refine ⟨rotr_length u k h.len, fun b hb => ?_, fun v hv i b hb => ?_⟩
  · obtain ⟨i, hi⟩ := List.mem_iff_getElem?.mp hb
    exact h.isB b (List.mem_of_getElem? (rotr_bits u k h.len i b hi).2)
  · obtain ⟨hi, hb'⟩ := rotr_bits u k h.len i b hb
    simp only [rotr] at hv
    cases hu : u.value with
    | none => simp [hu] at hv
    | some v' =>
      simp only [hu, Option.map_some, Option.some.injEq] at hv
      subst hv
      rw [rotateRight_bit v' k i hi]
      exact h.cons v' hu _ b hb'

theorem word_rotr {w : Index → F} {u : UInt32G} (k : Nat) (h : u.IsW w) :
    word w (u.rotr k) = (word w u).rotateRight (k % 32) := by
  rw [word_eq_iff (rotr_length u k h.len)]
  intro i b hb
  obtain ⟨hi, hb'⟩ := rotr_bits u k h.len i b hb
  rw [rotateRight_bit _ k i hi]
  exact (getLsbD_word w u _ (Nat.mod_lt _ (by omega)) b hb').symm

theorem rotr_known {cs : CS F} {u : UInt32G} {x : BitVec 32} (k : Nat) (h : u.Known cs x) :
    (u.rotr k).Known cs (x.rotateRight (k % 32)) := by
  refine ⟨by simp [rotr, h.1], rotr_length u k h.2.1, fun i b hb => ?_⟩
  obtain ⟨hi, hb'⟩ := rotr_bits u k h.2.1 i b hb
  rw [rotateRight_bit _ k i hi]
  exact h.2.2 _ b hb'

theorem shr_bits (u : UInt32G) (k : Nat) (hl : u.bits.length = 32) (i : Nat) (b : Boolean)
    (hb : (u.shr k).bits[i]? = some b) :
    i < 32 ∧ ((i + k % 32 < 32 ∧ u.bits[i + k % 32]? = some b) ∨
      (32 ≤ i + k % 32 ∧ b = .constant false)) := by
  have hk : k % 32 < 32 := Nat.mod_lt _ (by omega)
  simp only [shr] at hb
  have hi : i < 32 := by
    have := lt_of_getElem? hb
    simp only [List.length_take] at this
    omega
  refine ⟨hi, ?_⟩
  rw [List.getElem?_take_of_lt hi] at hb
  by_cases h : i < 32 - k % 32
  · rw [List.getElem?_append_left (by simpa [hl] using h), List.getElem?_drop] at hb
    left
    rw [Nat.add_comm i]
    exact ⟨by omega, hb⟩
  · rw [List.getElem?_append_right (by simpa [hl] using h)] at hb
    right
    refine ⟨by omega, ?_⟩
    have := List.mem_of_getElem? hb
    exact (List.mem_replicate.mp this).2

theorem shr_length (u : UInt32G) (k : Nat) (hl : u.bits.length = 32) :
    (u.shr k).bits.length = 32 := by
  simp [shr, hl]

theorem ushiftRight_bit (v : BitVec 32) (k i : Nat) : (v >>> k).getLsbD i = v.getLsbD (i + k) := by
  rw [BitVec.getLsbD_ushiftRight, Nat.add_comm]

theorem isB_constant (w : Index → F) (c : Bool) : (Boolean.constant c).IsB w :=
  (Boolean.rep_constant.mpr rfl).isB

theorem bit_constant (w : Index → F) (c : Bool) : (Boolean.constant c).bit w = c :=
  (Boolean.rep_constant.mpr rfl).bit_eq

theorem shr_isW {w : Index → F} {u : UInt32G} (k : Nat) (h : u.IsW w) : (u.shr k).IsW w := by
  refine ⟨shr_length u k h.len, fun b hb => ?_, fun v hv i b hb => ?_⟩
  · obtain ⟨i, hi⟩ := List.mem_iff_getElem?.mp hb
    rcases (shr_bits u k h.len i b hi).2 with ⟨_, h'⟩ | ⟨_, rfl⟩
    · exact h.isB b (List.mem_of_getElem? h')
    · exact isB_constant w false
  · obtain ⟨hi, hb'⟩ := shr_bits u k h.len i b hb
    simp only [shr] at hv
    cases hu : u.value with
    | none => simp [hu] at hv
    | some v' =>
      simp only [hu, Option.map_some, Option.some.injEq] at hv
      subst hv
      rw [ushiftRight_bit]
      rcases hb' with ⟨_, h'⟩ | ⟨h', rfl⟩
      · exact h.cons v' hu _ b h'
      · rw [BitVec.getLsbD_of_ge _ _ h']
        exact Boolean.compat_constant _

theorem word_shr {w : Index → F} {u : UInt32G} (k : Nat) (h : u.IsW w) :
    word w (u.shr k) = (word w u) >>> (k % 32) := by
  rw [word_eq_iff (shr_length u k h.len)]
  intro i b hb
  obtain ⟨hi, hb'⟩ := shr_bits u k h.len i b hb
  rw [ushiftRight_bit]
  rcases hb' with ⟨h1, h'⟩ | ⟨h', rfl⟩
  · exact (getLsbD_word w u _ h1 b h').symm
  · rw [BitVec.getLsbD_of_ge _ _ h', bit_constant]

theorem shr_known {cs : CS F} {u : UInt32G} {x : BitVec 32} (k : Nat) (h : u.Known cs x) :
    (u.shr k).Known cs (x >>> (k % 32)) := by
  refine ⟨by simp [shr, h.1], shr_length u k h.2.1, fun i b hb => ?_⟩
  obtain ⟨hi, hb'⟩ := shr_bits u k h.2.1 i b hb
  rw [ushiftRight_bit]
  rcases hb' with ⟨h1, h'⟩ | ⟨h', rfl⟩
  · exact h.2.2 _ b h'
  · rw [BitVec.getLsbD_of_ge _ _ h']
    exact Boolean.known_constant _

/-! xor -/

theorem xorBits_snd (as bs : List Boolean) :
    Snd (xorBits as bs : Synth F (List Boolean)) (fun w rs =>
      rs.length = min as.length bs.length ∧
      ∀ (i : Nat) (a b r : Boolean), as[i]? = some a → bs[i]? = some b → rs[i]? = some r →
        (∀ x y, a.Rep w x → b.Rep w y → r.Rep w (x ^^ y)) ∧
        (∀ x y, a.Compat x → b.Compat y → r.Compat (x ^^ y))) := by
  induction as generalizing bs with
  | nil => exact Snd.pure fun w _ => ⟨by simp, by simp⟩
  | cons a as ih =>
    cases bs with
    | nil => exact Snd.pure fun w _ => ⟨by simp, by simp⟩
    | cons b bs =>
      simp only [xorBits]
      have h1 : Snd (Boolean.xor a b : Synth F Boolean) (fun w r =>
          (∀ x y, a.Rep w x → b.Rep w y → r.Rep w (x ^^ y)) ∧
          (∀ x y, a.Compat x → b.Compat y → r.Compat (x ^^ y))) := by
        intro cs r cs' hr
        refine ⟨(Boolean.xor_snd a b cs r cs' hr).1, fun w h1 hs => ⟨?_, ?_⟩⟩
        · exact (Boolean.xor_snd a b cs r cs' hr).2 w h1 hs
        · intro x y hx hy
          exact (Boolean.xor_compat a b x y hx hy cs r cs' hr).2 w h1 hs
      refine h1.bind fun r => (ih bs).map fun w _ rs hrs hr => ⟨by simp [hrs.1], ?_⟩
      intro i a' b' r' ha hb hr'
      cases i with
      | zero =>
        simp only [List.getElem?_cons_zero, Option.some.injEq] at ha hb hr'
        subst ha hb hr'
        exact hr
      | succ i =>
        simp only [List.getElem?_cons_succ] at ha hb hr'
        exact hrs.2 i a' b' r' ha hb hr'

theorem xor_snd (a b : UInt32G) :
    Snd (xor a b : Synth F UInt32G) (fun w r => a.IsW w → b.IsW w →
      r.IsW w ∧ word w r = word w a ^^^ word w b) := by
  unfold xor
  refine (xorBits_snd a.bits b.bits).map fun w _ rs hrs ha hb => ?_
  have hl : rs.length = 32 := by rw [hrs.1, ha.len, hb.len]; rfl
  have hget : ∀ (i : Nat) (r : Boolean), rs[i]? = some r →
      r.Rep w ((word w a).getLsbD i ^^ (word w b).getLsbD i) ∧
      (∀ x y, a.value = some x → b.value = some y → r.Compat (x.getLsbD i ^^ y.getLsbD i)) := by
    intro i r hr
    have hi : i < 32 := hl ▸ lt_of_getElem? hr
    obtain ⟨x, hx⟩ := exists_getElem? (l := a.bits) (i := i) (ha.len.symm ▸ hi)
    obtain ⟨y, hy⟩ := exists_getElem? (l := b.bits) (i := i) (hb.len.symm ▸ hi)
    have h := hrs.2 i x y r hx hy hr
    refine ⟨h.1 _ _ (ha.rep.2 i x hx) (hb.rep.2 i y hy), fun u v hu hv => ?_⟩
    exact h.2 _ _ (ha.cons u hu i x hx) (hb.cons v hv i y hy)
  refine ⟨⟨hl, fun r hr => ?_, fun v hv i r hr => ?_⟩, ?_⟩
  · obtain ⟨i, hi⟩ := List.mem_iff_getElem?.mp hr
    exact (hget i r hi).1.isB
  · cases hav : a.value with
    | none => simp [hav] at hv
    | some x =>
      cases hbv : b.value with
      | none => simp [hav, hbv] at hv
      | some y =>
        simp only [hav, hbv, Option.some.injEq] at hv
        subst hv
        rw [BitVec.getLsbD_xor]
        exact (hget i r hr).2 x y hav hbv
  · rw [word_eq_iff hl]
    intro i r hr
    rw [BitVec.getLsbD_xor]
    exact (hget i r hr).1.bit_eq

theorem xorBits_cmp (as bs : List Boolean) (xs ys : Nat → Bool) : ∀ {cs : CS F},
    (∀ (i : Nat) (a : Boolean), as[i]? = some a → a.Known cs (xs i)) →
    (∀ (i : Nat) (b : Boolean), bs[i]? = some b → b.Known cs (ys i)) →
    Cmp cs (xorBits as bs : Synth F (List Boolean)) (fun rs cs' =>
      rs.length = min as.length bs.length ∧
      ∀ (i : Nat) (r : Boolean), rs[i]? = some r → r.Known cs' (xs i ^^ ys i)) := by
  induction as generalizing bs xs ys with
  | nil => intro cs _ _; exact Cmp.pure ⟨by simp, by simp⟩
  | cons a as ih =>
    intro cs ha hb
    cases bs with
    | nil => exact Cmp.pure ⟨by simp, by simp⟩
    | cons b bs =>
      simp only [xorBits]
      refine (Boolean.xor_cmp (ha 0 a rfl) (hb 0 b rfl)).bind fun r cs1 e1 hr => ?_
      refine (ih bs (fun i => xs (i + 1)) (fun i => ys (i + 1))
        (fun i a' h => (ha (i + 1) a' h).mono e1) (fun i b' h => (hb (i + 1) b' h).mono e1)).map
        fun rs cs2 e2 hrs => ⟨by simp [hrs.1], fun i r' hr' => ?_⟩
      cases i with
      | zero =>
        simp only [List.getElem?_cons_zero, Option.some.injEq] at hr'
        subst hr'
        exact hr.mono e2
      | succ i =>
        simp only [List.getElem?_cons_succ] at hr'
        exact hrs.2 i r' hr'

theorem xor_cmp {cs : CS F} {a b : UInt32G} {x y : BitVec 32} (ha : a.Known cs x)
    (hb : b.Known cs y) :
    Cmp cs (xor a b : Synth F UInt32G) (fun r cs' => r.Known cs' (x ^^^ y)) := by
  unfold xor
  refine (xorBits_cmp a.bits b.bits x.getLsbD y.getLsbD ha.2.2 hb.2.2).map fun rs cs' _ hrs => ?_
  refine ⟨by simp [ha.1, hb.1], by simp [hrs.1, ha.2.1, hb.2.1], fun i r hr => ?_⟩
  rw [BitVec.getLsbD_xor]
  exact hrs.2 i r hr

/-! three-operand gates -/

theorem mapM3_snd (f : Boolean → Boolean → Boolean → Synth F Boolean)
    (g : Bool → Bool → Bool → Bool)
    (hf : ∀ a b c, Snd (f a b c) (fun w r => ∀ x y z,
      a.Rep w x → b.Rep w y → c.Rep w z → r.Rep w (g x y z)))
    (hc : ∀ a b c x y z, a.Compat x → b.Compat y → c.Compat z →
      Snd (f a b c) (fun _ r => r.Compat (g x y z)))
    (as bs cs : List Boolean) :
    Snd (mapM3 f as bs cs : Synth F (List Boolean)) (fun w rs =>
      rs.length = min as.length (min bs.length cs.length) ∧
      ∀ (i : Nat) (a b c r : Boolean), as[i]? = some a → bs[i]? = some b → cs[i]? = some c →
        rs[i]? = some r →
        (∀ x y z, a.Rep w x → b.Rep w y → c.Rep w z → r.Rep w (g x y z)) ∧
        (∀ x y z, a.Compat x → b.Compat y → c.Compat z → r.Compat (g x y z))) := by
  induction as generalizing bs cs with
  | nil => exact Snd.pure fun w _ => ⟨by simp, by simp⟩
  | cons a as ih =>
    cases bs with
    | nil => exact Snd.pure fun w _ => ⟨by simp, by simp⟩
    | cons b bs =>
      cases cs with
      | nil => exact Snd.pure fun w _ => ⟨by simp, by simp⟩
      | cons c cs =>
        simp only [mapM3]
        have h1 : Snd (f a b c) (fun w r =>
            (∀ x y z, a.Rep w x → b.Rep w y → c.Rep w z → r.Rep w (g x y z)) ∧
            (∀ x y z, a.Compat x → b.Compat y → c.Compat z → r.Compat (g x y z))) := by
          intro cs r cs' hr
          refine ⟨(hf a b c cs r cs' hr).1, fun w h1 hs => ⟨(hf a b c cs r cs' hr).2 w h1 hs, ?_⟩⟩
          intro x y z hx hy hz
          exact (hc a b c x y z hx hy hz cs r cs' hr).2 w h1 hs
        refine h1.bind fun r => (ih bs cs).map fun w _ rs hrs hr => ⟨by simp [hrs.1], ?_⟩
        intro i a' b' c' r' ha hb hc' hr'
        cases i with
        | zero =>
          simp only [List.getElem?_cons_zero, Option.some.injEq] at ha hb hc' hr'
          subst ha hb hc' hr'
          exact hr
        | succ i =>
          simp only [List.getElem?_cons_succ] at ha hb hc' hr'
          exact hrs.2 i a' b' c' r' ha hb hc' hr'

theorem triop_snd (t : BitVec 32 → BitVec 32 → BitVec 32 → BitVec 32)
    (f : Boolean → Boolean → Boolean → Synth F Boolean) (g : Bool → Bool → Bool → Bool)
    (hf : ∀ a b c, Snd (f a b c) (fun w r => ∀ x y z,
      a.Rep w x → b.Rep w y → c.Rep w z → r.Rep w (g x y z)))
    (hc : ∀ a b c x y z, a.Compat x → b.Compat y → c.Compat z →
      Snd (f a b c) (fun _ r => r.Compat (g x y z)))
    (ht : ∀ x y z i, i < 32 → (t x y z).getLsbD i = g (x.getLsbD i) (y.getLsbD i) (z.getLsbD i))
    (a b c : UInt32G) :
    Snd (triop t f a b c : Synth F UInt32G) (fun w r => a.IsW w → b.IsW w → c.IsW w →
      r.IsW w ∧ word w r = t (word w a) (word w b) (word w c)) := by
  unfold triop
  refine (mapM3_snd f g hf hc a.bits b.bits c.bits).map fun w _ rs hrs ha hb hc => ?_
  have hl : rs.length = 32 := by rw [hrs.1, ha.len, hb.len, hc.len]; rfl
  have hget : ∀ (i : Nat) (r : Boolean), rs[i]? = some r → i < 32 ∧
      r.Rep w (g ((word w a).getLsbD i) ((word w b).getLsbD i) ((word w c).getLsbD i)) ∧
      (∀ x y z, a.value = some x → b.value = some y → c.value = some z →
        r.Compat (g (x.getLsbD i) (y.getLsbD i) (z.getLsbD i))) := by
    intro i r hr
    have hi : i < 32 := hl ▸ lt_of_getElem? hr
    obtain ⟨x, hx⟩ := exists_getElem? (l := a.bits) (i := i) (ha.len.symm ▸ hi)
    obtain ⟨y, hy⟩ := exists_getElem? (l := b.bits) (i := i) (hb.len.symm ▸ hi)
    obtain ⟨z, hz⟩ := exists_getElem? (l := c.bits) (i := i) (hc.len.symm ▸ hi)
    have h := hrs.2 i x y z r hx hy hz hr
    refine ⟨hi, h.1 _ _ _ (ha.rep.2 i x hx) (hb.rep.2 i y hy) (hc.rep.2 i z hz),
      fun u v t hu hv ht => ?_⟩
    exact h.2 _ _ _ (ha.cons u hu i x hx) (hb.cons v hv i y hy) (hc.cons t ht i z hz)
  refine ⟨⟨hl, fun r hr => ?_, fun v hv i r hr => ?_⟩, ?_⟩
  · obtain ⟨i, hi⟩ := List.mem_iff_getElem?.mp hr
    exact (hget i r hi).2.1.isB
  · cases hav : a.value with
    | none => simp [hav] at hv
    | some x =>
      cases hbv : b.value with
      | none => simp [hav, hbv] at hv
      | some y =>
        cases hcv : c.value with
        | none => simp [hav, hbv, hcv] at hv
        | some z =>
          simp only [hav, hbv, hcv, Option.some.injEq] at hv
          subst hv
          rw [ht x y z i (hget i r hr).1]
          exact (hget i r hr).2.2 x y z hav hbv hcv
  · rw [word_eq_iff hl]
    intro i r hr
    rw [ht _ _ _ i (hget i r hr).1]
    exact (hget i r hr).2.1.bit_eq

theorem mapM3_cmp (f : Boolean → Boolean → Boolean → Synth F Boolean)
    (g : Bool → Bool → Bool → Bool)
    (hf : ∀ {cs : CS F} {a b c : Boolean} {x y z : Bool}, a.Known cs x → b.Known cs y →
      c.Known cs z → Cmp cs (f a b c) (fun r cs' => r.Known cs' (g x y z)))
    (as bs ds : List Boolean) (xs ys zs : Nat → Bool) : ∀ {cs : CS F},
    (∀ (i : Nat) (a : Boolean), as[i]? = some a → a.Known cs (xs i)) →
    (∀ (i : Nat) (b : Boolean), bs[i]? = some b → b.Known cs (ys i)) →
    (∀ (i : Nat) (b : Boolean), ds[i]? = some b → b.Known cs (zs i)) →
    Cmp cs (mapM3 f as bs ds : Synth F (List Boolean)) (fun rs cs' =>
      rs.length = min as.length (min bs.length ds.length) ∧
      ∀ (i : Nat) (r : Boolean), rs[i]? = some r → r.Known cs' (g (xs i) (ys i) (zs i))) := by
  induction as generalizing bs ds xs ys zs with
  | nil => intro cs _ _ _; exact Cmp.pure ⟨by simp, by simp⟩
  | cons a as ih =>
    intro cs ha hb hd
    cases bs with
    | nil => exact Cmp.pure ⟨by simp, by simp⟩
    | cons b bs =>
      cases ds with
      | nil => exact Cmp.pure ⟨by simp, by simp⟩
      | cons d ds =>
        simp only [mapM3]
        refine (hf (ha 0 a rfl) (hb 0 b rfl) (hd 0 d rfl)).bind fun r cs1 e1 hr => ?_
        refine (ih bs ds (fun i => xs (i + 1)) (fun i => ys (i + 1)) (fun i => zs (i + 1))
          (fun i a' h => (ha (i + 1) a' h).mono e1) (fun i b' h => (hb (i + 1) b' h).mono e1)
          (fun i b' h => (hd (i + 1) b' h).mono e1)).map
          fun rs cs2 e2 hrs => ⟨by simp [hrs.1], fun i r' hr' => ?_⟩
        cases i with
        | zero =>
          simp only [List.getElem?_cons_zero, Option.some.injEq] at hr'
          subst hr'
          exact hr.mono e2
        | succ i =>
          simp only [List.getElem?_cons_succ] at hr'
          exact hrs.2 i r' hr'

theorem triop_cmp {cs : CS F} (t : BitVec 32 → BitVec 32 → BitVec 32 → BitVec 32)
    (f : Boolean → Boolean → Boolean → Synth F Boolean) (g : Bool → Bool → Bool → Bool)
    (hf : ∀ {cs : CS F} {a b c : Boolean} {x y z : Bool}, a.Known cs x → b.Known cs y →
      c.Known cs z → Cmp cs (f a b c) (fun r cs' => r.Known cs' (g x y z)))
    (ht : ∀ x y z i, i < 32 → (t x y z).getLsbD i = g (x.getLsbD i) (y.getLsbD i) (z.getLsbD i))
    {a b c : UInt32G} {x y z : BitVec 32} (ha : a.Known cs x) (hb : b.Known cs y)
    (hc : c.Known cs z) :
    Cmp cs (triop t f a b c : Synth F UInt32G) (fun r cs' => r.Known cs' (t x y z)) := by
  unfold triop
  refine (mapM3_cmp f g hf a.bits b.bits c.bits x.getLsbD y.getLsbD z.getLsbD ha.2.2 hb.2.2
    hc.2.2).map fun rs cs' _ hrs => ?_
  have hl : rs.length = 32 := by simp [hrs.1, ha.2.1, hb.2.1, hc.2.1]
  refine ⟨by simp [ha.1, hb.1, hc.1], hl, fun i r hr => ?_⟩
  rw [ht _ _ _ i (hl ▸ lt_of_getElem? hr)]
  exact hrs.2 i r hr

theorem ch_bits (x y z : BitVec 32) (i : Nat) (hi : i < 32) :
    ((x &&& y) ^^^ ((~~~x) &&& z)).getLsbD i =
      if x.getLsbD i then y.getLsbD i else z.getLsbD i := by
  simp only [BitVec.getLsbD_xor, BitVec.getLsbD_and, BitVec.getLsbD_not, hi, decide_true,
    Bool.true_and]
  cases x.getLsbD i <;> simp

theorem maj_bits (x y z : BitVec 32) (i : Nat) (_ : i < 32) :
    (((x &&& y) ^^^ (x &&& z)) ^^^ (y &&& z)).getLsbD i =
      Boolean.majFn (x.getLsbD i) (y.getLsbD i) (z.getLsbD i) := by
  simp only [BitVec.getLsbD_xor, BitVec.getLsbD_and]
  rfl

theorem sha256Ch_snd (a b c : UInt32G) :
    Snd (sha256Ch a b c : Synth F UInt32G) (fun w r => a.IsW w → b.IsW w → c.IsW w →
      r.IsW w ∧ word w r = (word w a &&& word w b) ^^^ ((~~~ word w a) &&& word w c)) :=
  triop_snd _ _ (fun x y z => if x then y else z) Boolean.sha256Ch_snd Boolean.sha256Ch_compat
    ch_bits a b c

theorem sha256Maj_snd (a b c : UInt32G) :
    Snd (sha256Maj a b c : Synth F UInt32G) (fun w r => a.IsW w → b.IsW w → c.IsW w →
      r.IsW w ∧ word w r = ((word w a &&& word w b) ^^^ (word w a &&& word w c)) ^^^
        (word w b &&& word w c)) :=
  triop_snd _ _ Boolean.majFn Boolean.sha256Maj_snd Boolean.sha256Maj_compat maj_bits a b c

theorem sha256Ch_cmp {cs : CS F} {a b c : UInt32G} {x y z : BitVec 32} (ha : a.Known cs x)
    (hb : b.Known cs y) (hc : c.Known cs z) :
    Cmp cs (sha256Ch a b c : Synth F UInt32G)
      (fun r cs' => r.Known cs' ((x &&& y) ^^^ ((~~~x) &&& z))) :=
  triop_cmp _ _ (fun x y z => if x then y else z) Boolean.sha256Ch_cmp ch_bits ha hb hc

theorem sha256Maj_cmp {cs : CS F} {a b c : UInt32G} {x y z : BitVec 32} (ha : a.Known cs x)
    (hb : b.Known cs y) (hc : c.Known cs z) :
    Cmp cs (sha256Maj a b c : Synth F UInt32G)
      (fun r cs' => r.Known cs' (((x &&& y) ^^^ (x &&& z)) ^^^ (y &&& z))) :=
  triop_cmp _ _ Boolean.majFn Boolean.sha256Maj_cmp maj_bits ha hb hc

end UInt32G

end Zkp
