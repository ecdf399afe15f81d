/- Program logic for code running on a `MultiEq`, and the addition gadget. -/
import Verif.Proof.Word
import Mathlib.Data.Nat.Size

set_option linter.unusedSectionVars false
set_option linter.unusedSimpArgs false

namespace Zkp

variable {F : Type} [Field F]

/-- `cap` bits fit in the field: numbers below `2^cap` are distinct field elements.  This is what
`F::Params::CAPACITY` promises. -/
def CapOK (F : Type) [Field F] (cap : Nat) : Prop :=
  ∀ a b : Nat, a < 2 ^ cap → b < 2 ^ cap → (a : F) = (b : F) → a = b

/-- Both accumulated sides are numbers of at most `bitsUsed` bits. -/
def MultiEq.Bounded (w : Index → F) (s : MultiEq F) : Prop :=
  ∃ l r : Nat, s.lhs.eval w = l ∧ s.rhs.eval w = r ∧ l < 2 ^ s.bitsUsed ∧ r < 2 ^ s.bitsUsed

/-- The inner system is satisfied and the pending equality holds. -/
def MultiEq.SatM (w : Index → F) (s : MultiEq F) : Prop :=
  s.cs.Sat w ∧ s.lhs.eval w = s.rhs.eval w

theorem MSynth.bind_ok {α β : Type} {m : MSynth F α} {f : α → MSynth F β} {s s'' : MultiEq F}
    {b : β} :
    (m >>= f) s = .ok (b, s'') ↔ ∃ a s', m s = .ok (a, s') ∧ f a s' = .ok (b, s'') := by
  change (StateT.bind m f s = .ok (b, s'')) ↔ _
  unfold StateT.bind
  cases hm : m s with
  | error e => simp [bind, Except.bind]
  | ok p =>
    obtain ⟨a, s'⟩ := p
    simp only [bind, Except.bind, Except.ok.injEq, Prod.mk.injEq]
    constructor
    · intro h; exact ⟨a, s', ⟨rfl, rfl⟩, h⟩
    · rintro ⟨a', t, ⟨rfl, rfl⟩, h⟩; exact h

theorem MSynth.pure_ok {α : Type} {a b : α} {s s' : MultiEq F} :
    (pure a : MSynth F α) s = .ok (b, s') ↔ a = b ∧ s = s' := by
  change (Except.ok (a, s) = Except.ok (b, s')) ↔ _
  simp

/-- Soundness triple on a batcher.  `Pre`: what is known about the operands; `P0`: what the emitted
constraints alone guarantee about the result; `P`: what is guaranteed once the pending equality is
enforced as well. -/
def SndM {α : Type} (Pre : (Index → F) → Prop) (m : MSynth F α)
    (P0 P : (Index → F) → α → Prop) : Prop :=
  ∀ s a s', m s = .ok (a, s') → s.cs.Ext s'.cs ∧
    ∀ w : Index → F, w .one = 1 → s'.cs.Sat w → Pre w → s.Bounded w →
      s'.Bounded w ∧ P0 w a ∧ (s'.SatM w → s.SatM w ∧ P w a)

theorem SndM.bind {α β : Type} {Pre : (Index → F) → Prop} {m : MSynth F α} {f : α → MSynth F β}
    {P0 P : (Index → F) → α → Prop} {Q0 Q : (Index → F) → β → Prop} (hm : SndM Pre m P0 P)
    (hf : ∀ a, SndM (fun w => Pre w ∧ P0 w a) (f a) Q0 (fun w b => P w a → Q w b)) :
    SndM Pre (m >>= f) Q0 Q := by
  intro s b s'' h
  obtain ⟨a, s', h1, h2⟩ := MSynth.bind_ok.mp h
  obtain ⟨e1, p1⟩ := hm _ _ _ h1
  obtain ⟨e2, p2⟩ := hf a _ _ _ h2
  refine ⟨e1.trans e2, fun w hw hs hpre hb => ?_⟩
  obtain ⟨b1, q1, r1⟩ := p1 w hw (e2.sat hs) hpre hb
  obtain ⟨b2, q2, r2⟩ := p2 w hw hs ⟨hpre, q1⟩ b1
  refine ⟨b2, q2, fun hsat => ?_⟩
  obtain ⟨s1, t1⟩ := r2 hsat
  obtain ⟨s0, t0⟩ := r1 s1
  exact ⟨s0, t1 t0⟩

theorem SndM.pure {α : Type} {Pre : (Index → F) → Prop} {a : α} {P0 P : (Index → F) → α → Prop}
    (h : ∀ w : Index → F, w .one = 1 → Pre w → P0 w a ∧ P w a) :
    SndM Pre (Pure.pure a : MSynth F α) P0 P := by
  intro s b s' hb
  obtain ⟨rfl, rfl⟩ := MSynth.pure_ok.mp hb
  exact ⟨CS.Ext.refl _, fun w hw _ hpre hbd =>
    ⟨hbd, (h w hw hpre).1, fun hs => ⟨hs, (h w hw hpre).2⟩⟩⟩

theorem SndM.weaken {α : Type} {Pre Pre' : (Index → F) → Prop} {m : MSynth F α}
    {P0 P Q0 Q : (Index → F) → α → Prop} (hm : SndM Pre m P0 P)
    (hpre : ∀ w : Index → F, w .one = 1 → Pre' w → Pre w)
    (h : ∀ w : Index → F, w .one = 1 → Pre' w → ∀ a, P0 w a → Q0 w a ∧ (P w a → Q w a)) :
    SndM Pre' m Q0 Q := by
  intro s a s' ha
  obtain ⟨e, p⟩ := hm _ _ _ ha
  refine ⟨e, fun w hw hs hp hb => ?_⟩
  obtain ⟨b, q, r⟩ := p w hw hs (hpre w hw hp) hb
  exact ⟨b, (h w hw hp a q).1, fun hsat => ⟨(r hsat).1, (h w hw hp a q).2 (r hsat).2⟩⟩

theorem SndM.pre {α : Type} {Pre Pre' : (Index → F) → Prop} {m : MSynth F α}
    {P0 P : (Index → F) → α → Prop} (hm : SndM Pre m P0 P)
    (hpre : ∀ w : Index → F, w .one = 1 → Pre' w → Pre w) : SndM Pre' m P0 P :=
  hm.weaken hpre fun _ _ _ _ h => ⟨h, id⟩

theorem SndM.map {α β : Type} {Pre : (Index → F) → Prop} {m : MSynth F α} {f : α → β}
    {P0 P : (Index → F) → α → Prop} {Q0 Q : (Index → F) → β → Prop} (hm : SndM Pre m P0 P)
    (h : ∀ w : Index → F, w .one = 1 → Pre w → ∀ a, P0 w a →
      Q0 w (f a) ∧ (P w a → Q w (f a))) :
    SndM Pre (m >>= fun a => Pure.pure (f a)) Q0 Q :=
  hm.bind fun a => SndM.pure fun w hw hp => h w hw hp.1 a hp.2

theorem SndM.lift {α : Type} {Pre : (Index → F) → Prop} {m : Synth F α}
    {P : (Index → F) → α → Prop} (hm : Snd m P) {P0' P' : (Index → F) → α → Prop}
    (h : ∀ w : Index → F, w .one = 1 → Pre w → ∀ a, P w a → P0' w a ∧ P' w a) :
    SndM Pre (MSynth.lift m) P0' P' := by
  intro s a s' hr
  unfold MSynth.lift at hr
  cases hx : m s.cs with
  | error e => simp [hx] at hr
  | ok p =>
    obtain ⟨a', cs'⟩ := p
    simp only [hx, Except.ok.injEq, Prod.mk.injEq] at hr
    obtain ⟨rfl, rfl⟩ := hr
    obtain ⟨e, p⟩ := hm _ _ _ hx
    refine ⟨e, fun w hw hs hp hb => ?_⟩
    have := h w hw hp a' (p w hw hs)
    exact ⟨hb, this.1, fun hsat => ⟨⟨e.sat hsat.1, hsat.2⟩, this.2⟩⟩

/-- The accumulated numbers are split by the width of the earlier part. -/
theorem split_eq {l r l' r' b : Nat} (hl : l < 2 ^ b) (hr : r < 2 ^ b)
    (h : l + 2 ^ b * l' = r + 2 ^ b * r') : l = r ∧ l' = r' := by
  have h1 : (l + 2 ^ b * l') % 2 ^ b = (r + 2 ^ b * r') % 2 ^ b := by rw [h]
  rw [Nat.add_mul_mod_self_left, Nat.add_mul_mod_self_left, Nat.mod_eq_of_lt hl,
    Nat.mod_eq_of_lt hr] at h1
  refine ⟨h1, ?_⟩
  subst h1
  have h2 : 2 ^ b * l' = 2 ^ b * r' := by omega
  exact Nat.eq_of_mul_eq_mul_left (Nat.two_pow_pos b) h2

theorem accumulate_bounded (w : Index → F) (s : MultiEq F) : s.accumulate.Bounded w :=
  ⟨0, 0, by simp [MultiEq.accumulate], by simp [MultiEq.accumulate], by simp, by simp⟩

theorem accumulate_ext (s : MultiEq F) : s.cs.Ext s.accumulate.cs :=
  ext_append_constraint s.cs _

theorem accumulate_sat {w : Index → F} (hw : w .one = 1) {s : MultiEq F} :
    s.accumulate.cs.Sat w ↔ s.SatM w := by
  unfold MultiEq.SatM CS.Sat MultiEq.accumulate
  simp only [List.mem_append, List.mem_singleton]
  constructor
  · intro h
    refine ⟨fun k hk => h k (Or.inl hk), ?_⟩
    have := h _ (Or.inr rfl)
    simpa [R1C.Holds, hw] using this
  · rintro ⟨h, e⟩ k (hk | rfl)
    · exact h k hk
    · simpa [R1C.Holds, hw] using e

theorem enforceEqual_sndM {cap : Nat} (hcap : CapOK F cap) (n : Nat) (lhs rhs : LC F) :
    SndM (fun w => ∃ l r : Nat, lhs.eval w = l ∧ rhs.eval w = r ∧ l < 2 ^ n ∧ r < 2 ^ n)
      (MSynth.enforceEqual cap n lhs rhs) (fun _ _ => True)
      (fun w _ => lhs.eval w = rhs.eval w) := by
  intro s u s' h
  unfold MSynth.enforceEqual at h
  -- the state after the possible flush
  obtain ⟨t, ht, hext, hprop⟩ : ∃ t : MultiEq F,
      t = (if cap ≤ s.bitsUsed + n then s.accumulate else s) ∧ s.cs.Ext t.cs ∧
      ∀ w : Index → F, w .one = 1 → s.Bounded w → t.Bounded w ∧ (t.SatM w → s.SatM w) := by
    refine ⟨_, rfl, ?_, ?_⟩
    · by_cases hc : cap ≤ s.bitsUsed + n
      · rw [if_pos hc]; exact accumulate_ext s
      · rw [if_neg hc]; exact CS.Ext.refl _
    · intro w hw hb
      by_cases hc : cap ≤ s.bitsUsed + n
      · rw [if_pos hc]
        exact ⟨accumulate_bounded w s, fun h => (accumulate_sat hw).mp h.1⟩
      · rw [if_neg hc]; exact ⟨hb, id⟩
  simp only [MultiEq.enforceEqual, ← ht] at h
  by_cases hfit : t.bitsUsed + n < cap
  · rw [if_pos hfit] at h
    simp only [Except.ok.injEq, Prod.mk.injEq] at h
    obtain ⟨_, rfl⟩ := h
    refine ⟨hext, fun w hw hs hpre hb => ?_⟩
    obtain ⟨hb', hback⟩ := hprop w hw hb
    obtain ⟨l0, r0, hl0, hr0, bl0, br0⟩ := hb'
    obtain ⟨l, r, hl, hr, bl, br⟩ := hpre
    have el : (t.lhs.addScaled (2 ^ t.bitsUsed) lhs).eval w = ((l0 + 2 ^ t.bitsUsed * l : Nat) : F) := by
      simp [hl0, hl]
    have er : (t.rhs.addScaled (2 ^ t.bitsUsed) rhs).eval w = ((r0 + 2 ^ t.bitsUsed * r : Nat) : F) := by
      simp [hr0, hr]
    have bnd : ∀ a b : Nat, a < 2 ^ t.bitsUsed → b < 2 ^ n →
        a + 2 ^ t.bitsUsed * b < 2 ^ (t.bitsUsed + n) := by
      intro a b ha hb
      rw [Nat.pow_add]
      have : 2 ^ t.bitsUsed * (b + 1) ≤ 2 ^ t.bitsUsed * 2 ^ n := Nat.mul_le_mul_left _ hb
      rw [Nat.mul_add, Nat.mul_one] at this
      omega
    refine ⟨⟨_, _, el, er, bnd _ _ bl0 bl, bnd _ _ br0 br⟩, trivial, fun hsat => ?_⟩
    have heq := hsat.2
    simp only at heq
    rw [el, er] at heq
    have hlt : 2 ^ (t.bitsUsed + n) ≤ 2 ^ cap := Nat.pow_le_pow_right (by omega) (by omega)
    have := hcap _ _ (lt_of_lt_of_le (bnd _ _ bl0 bl) hlt) (lt_of_lt_of_le (bnd _ _ br0 br) hlt) heq
    obtain ⟨h1, h2⟩ := split_eq bl0 br0 this
    refine ⟨hback ⟨hsat.1, ?_⟩, ?_⟩
    · rw [hl0, hr0, h1]
    · show lhs.eval w = rhs.eval w
      rw [hl, hr, h2]
  · rw [if_neg hfit] at h
    simp at h

theorem drop_ext (s : MultiEq F) : s.cs.Ext s.drop := by
  unfold MultiEq.drop
  split
  · exact accumulate_ext s
  · exact CS.Ext.refl _

theorem drop_sat {w : Index → F} (hw : w .one = 1) {s : MultiEq F} (hb : s.Bounded w) :
    s.drop.Sat w ↔ s.SatM w := by
  unfold MultiEq.drop
  by_cases h : s.bitsUsed > 0
  · rw [if_pos h]; exact accumulate_sat hw
  · rw [if_neg h]
    constructor
    · intro hs
      refine ⟨hs, ?_⟩
      obtain ⟨l, r, hl, hr, bl, br⟩ := hb
      have h0 : s.bitsUsed = 0 := by omega
      rw [h0] at bl br
      have : l = 0 ∧ r = 0 := by omega
      rw [hl, hr, this.1, this.2]
    · exact fun h => h.1

theorem Snd.scoped {α : Type} {Pre : (Index → F) → Prop} {m : MSynth F α}
    {P0 P : (Index → F) → α → Prop} (hm : SndM Pre m P0 P) :
    Snd (MSynth.scoped m) (fun w a => Pre w → P0 w a ∧ P w a) := by
  intro cs a cs' h
  unfold MSynth.scoped at h
  cases hx : m (MultiEq.new cs) with
  | error e => simp [hx] at h
  | ok p =>
    obtain ⟨a', s'⟩ := p
    simp only [hx, Except.ok.injEq, Prod.mk.injEq] at h
    obtain ⟨rfl, rfl⟩ := h
    obtain ⟨e, p⟩ := hm _ _ _ hx
    refine ⟨CS.Ext.trans e (drop_ext s'), fun w hw hs hpre => ?_⟩
    have hb0 : (MultiEq.new cs).Bounded w :=
      ⟨0, 0, by simp [MultiEq.new], by simp [MultiEq.new], by simp, by simp⟩
    obtain ⟨b1, q1, r1⟩ := p w hw ((drop_ext s').sat hs) hpre hb0
    exact ⟨q1, (r1 ((drop_sat hw b1).mp hs)).2⟩

/-! ### Completeness -/

structure MultiEq.GoodM (s : MultiEq F) : Prop where
  good : s.cs.Good
  eq : ∀ w : Index → F, s.cs.Agrees w → s.lhs.eval w = s.rhs.eval w

/-- Completeness triple on a batcher. -/
def CmpM {α : Type} (s : MultiEq F) (m : MSynth F α) (Q : α → CS F → Prop) : Prop :=
  s.GoodM → ∃ a s', m s = .ok (a, s') ∧ s.cs.Ext s'.cs ∧ s'.GoodM ∧ Q a s'.cs

theorem CmpM.bind {α β : Type} {s : MultiEq F} {m : MSynth F α} {f : α → MSynth F β}
    {P : α → CS F → Prop} {Q : β → CS F → Prop} (hm : CmpM s m P)
    (hf : ∀ a s', s.cs.Ext s'.cs → P a s'.cs → CmpM s' (f a) Q) : CmpM s (m >>= f) Q := by
  intro hg
  obtain ⟨a, s', h1, e1, g1, p1⟩ := hm hg
  obtain ⟨b, s'', h2, e2, g2, p2⟩ := hf a s' e1 p1 g1
  exact ⟨b, s'', MSynth.bind_ok.mpr ⟨a, s', h1, h2⟩, e1.trans e2, g2, p2⟩

theorem CmpM.pure {α : Type} {s : MultiEq F} {a : α} {Q : α → CS F → Prop} (h : Q a s.cs) :
    CmpM s (Pure.pure a : MSynth F α) Q :=
  fun hg => ⟨a, s, rfl, CS.Ext.refl _, hg, h⟩

theorem CmpM.map {α β : Type} {s : MultiEq F} {m : MSynth F α} {f : α → β}
    {P : α → CS F → Prop} {Q : β → CS F → Prop} (hm : CmpM s m P)
    (h : ∀ a s', s.cs.Ext s' → P a s' → Q (f a) s') :
    CmpM s (m >>= fun a => Pure.pure (f a)) Q :=
  hm.bind fun a s' e p => CmpM.pure (h a s'.cs e p)

theorem CmpM.weaken {α : Type} {s : MultiEq F} {m : MSynth F α}
    {P Q : α → CS F → Prop} (hm : CmpM s m P)
    (h : ∀ a s', s.cs.Ext s' → P a s' → Q a s') : CmpM s m Q := by
  intro hg
  obtain ⟨a, s', h1, e1, g1, p1⟩ := hm hg
  exact ⟨a, s', h1, e1, g1, h a _ e1 p1⟩

theorem CmpM.lift {α : Type} {s : MultiEq F} {m : Synth F α} {Q : α → CS F → Prop}
    (hm : Cmp s.cs m Q) : CmpM s (MSynth.lift m) Q := by
  intro hg
  obtain ⟨a, cs', h1, e1, g1, p1⟩ := hm hg.good
  exact ⟨a, { s with cs := cs' }, by simp [MSynth.lift, h1], e1,
    ⟨g1, fun w hw => hg.eq w (e1.agrees hw)⟩, p1⟩

theorem accumulate_goodM {s : MultiEq F} (hg : s.GoodM) : s.accumulate.GoodM := by
  refine ⟨⟨hg.good.proving, hg.good.one, fun w hw => ?_⟩, fun w hw => rfl⟩
  have hw' : s.cs.Agrees w := (accumulate_ext s).agrees hw
  exact (accumulate_sat (hg.good.one_eq hw')).mpr ⟨hg.good.valid w hw', hg.eq w hw'⟩

theorem enforceEqual_cmpM {cap n : Nat} (hn : n < cap) {lhs rhs : LC F} {s : MultiEq F}
    (h : ∀ w : Index → F, w .one = 1 → s.cs.Agrees w → lhs.eval w = rhs.eval w) :
    CmpM s (MSynth.enforceEqual cap n lhs rhs) (fun _ _ => True) := by
  intro hg
  unfold MSynth.enforceEqual
  obtain ⟨t, ht, hext, hgt, hlt⟩ : ∃ t : MultiEq F,
      t = (if cap ≤ s.bitsUsed + n then s.accumulate else s) ∧ s.cs.Ext t.cs ∧ t.GoodM ∧
      t.bitsUsed + n < cap := by
    refine ⟨_, rfl, ?_⟩
    by_cases hc : cap ≤ s.bitsUsed + n
    · rw [if_pos hc]
      exact ⟨accumulate_ext s, accumulate_goodM hg, by simpa [MultiEq.accumulate] using hn⟩
    · rw [if_neg hc]; exact ⟨CS.Ext.refl _, hg, by omega⟩
  refine ⟨(), { t with
      lhs := t.lhs.addScaled (2 ^ t.bitsUsed) lhs
      rhs := t.rhs.addScaled (2 ^ t.bitsUsed) rhs
      bitsUsed := t.bitsUsed + n }, ?_, hext, ⟨hgt.good, ?_⟩, trivial⟩
  · simp only [MultiEq.enforceEqual, ← ht]
    rw [if_pos hlt]
  · intro w hw
    have hw' : t.cs.Agrees w := hw
    simp [hgt.eq w hw', h w (hgt.good.one_eq hw') (hext.agrees hw')]

theorem drop_good {s : MultiEq F} (hg : s.GoodM) : s.drop.Good := by
  unfold MultiEq.drop
  split
  · exact (accumulate_goodM hg).good
  · exact hg.good

theorem Cmp.scoped {α : Type} {cs : CS F} {m : MSynth F α} {Q : α → CS F → Prop}
    (hm : CmpM (MultiEq.new cs) m Q) (hmono : ∀ a c c', CS.Ext c c' → Q a c → Q a c') :
    Cmp cs (MSynth.scoped m) Q := by
  intro hg
  obtain ⟨a, s', h1, e1, g1, p1⟩ := hm ⟨hg, fun w _ => rfl⟩
  exact ⟨a, s'.drop, by simp [MSynth.scoped, h1], CS.Ext.trans e1 (drop_ext s'), drop_good g1,
    hmono a _ _ (drop_ext s') p1⟩

/-! ### addmany -/

namespace UInt32G

theorem addOperandBits_eval (w : Index → F) (hw : w .one = 1) (bits : List Boolean)
    (hb : ∀ b ∈ bits, b.IsB w) (lc : LC F) (ac : Bool) (coeff : F) :
    (addOperandBits bits (lc, ac) coeff).1.eval w =
      lc.eval w + coeff * (natOf (bits.map (Boolean.bit w)) : F) := by
  induction bits generalizing lc ac coeff with
  | nil => simp [addOperandBits, natOf]
  | cons b bs ih =>
    simp only [addOperandBits, List.map_cons, natOf]
    rw [ih fun b' h => hb b' (List.mem_cons_of_mem _ h)]
    rw [LC.eval_add, Boolean.eval_lc w hw, (hb b List.mem_cons_self).val_eq]
    push_cast
    ring

theorem addOperandBits_const (bits : List Boolean) (lc : LC F) (ac : Bool) (coeff : F) :
    (addOperandBits bits (lc, ac) coeff).2 = (ac && bits.all Boolean.isConstant) := by
  induction bits generalizing lc ac coeff with
  | nil => simp [addOperandBits]
  | cons b bs ih => simp [addOperandBits, ih, Bool.and_assoc]

/-- The sum of the represented words, as a natural number. -/
noncomputable def sumNat (w : Index → F) (ops : List UInt32G) : Nat :=
  (ops.map fun u => (word w u).toNat).sum

theorem addOperands_eval (w : Index → F) (hw : w .one = 1) (ops : List UInt32G)
    (h : ∀ u ∈ ops, u.IsW w) (rv : Option Nat) (lc : LC F) (ac : Bool) :
    (addOperands ops (rv, lc, ac)).2.1.eval w = lc.eval w + (sumNat w ops : F) := by
  induction ops generalizing rv lc ac with
  | nil => simp [addOperands, sumNat]
  | cons u us ih =>
    have hu := h u List.mem_cons_self
    simp only [addOperands]
    rw [ih fun u' h' => h u' (List.mem_cons_of_mem _ h')]
    rw [addOperandBits_eval w hw u.bits hu.isB]
    simp only [sumNat, List.map_cons, List.sum_cons]
    rw [toNat_word w u hu.len]
    push_cast
    ring

theorem addOperands_const (ops : List UInt32G) (rv : Option Nat) (lc : LC F) (ac : Bool) :
    (addOperands ops (rv, lc, ac)).2.2 =
      (ac && ops.all fun u => u.bits.all Boolean.isConstant) := by
  induction ops generalizing rv lc ac with
  | nil => simp [addOperands]
  | cons u us ih =>
    simp only [addOperands]
    rw [ih, addOperandBits_const]
    simp [Bool.and_assoc]

theorem addOperands_value (ops : List UInt32G) (rv : Option Nat) (lc : LC F) (ac : Bool) :
    (addOperands ops (rv, lc, ac)).1 =
      rv.bind fun r => (ops.mapM UInt32G.value).map fun vs =>
        r + (vs.map BitVec.toNat).sum := by
  induction ops generalizing rv lc ac with
  | nil => cases rv <;> simp [addOperands]
  | cons u us ih =>
    simp only [addOperands]
    rw [ih]
    cases hv : u.value with
    | none => cases rv <;> simp [List.mapM_cons, hv]
    | some v =>
      cases rv with
      | none => simp
      | some r =>
        cases hm : us.mapM UInt32G.value with
        | none => simp [List.mapM_cons, hv, hm]
        | some vs =>
          simp [List.mapM_cons, hv, hm]
          ring

/-- A word made of constant bits denotes its cached value. -/
theorem word_of_const {w : Index → F} {u : UInt32G} (hu : u.IsW w)
    (hc : u.bits.all Boolean.isConstant = true) {v : BitVec 32} (hv : u.value = some v) :
    word w u = v := by
  rw [word_eq_iff hu.len]
  intro i b hb
  have h1 := List.all_eq_true.mp hc b (List.mem_of_getElem? hb)
  cases b with
  | is b => simp [Boolean.isConstant] at h1
  | not_ b => simp [Boolean.isConstant] at h1
  | constant c =>
    rw [bit_constant]
    exact hu.cons v hv i _ hb c rfl

theorem sumNat_const {w : Index → F} (ops : List UInt32G) (h : ∀ u ∈ ops, u.IsW w)
    (hc : (ops.all fun u => u.bits.all Boolean.isConstant) = true) (vs : List (BitVec 32))
    (hv : ops.mapM UInt32G.value = some vs) : sumNat w ops = (vs.map BitVec.toNat).sum := by
  induction ops generalizing vs with
  | nil => simp at hv; subst hv; rfl
  | cons u us ih =>
    simp only [List.all_cons, Bool.and_eq_true] at hc
    cases hu : u.value with
    | none => simp [List.mapM_cons, hu] at hv
    | some v =>
      cases hm : us.mapM UInt32G.value with
      | none => simp [List.mapM_cons, hu, hm] at hv
      | some vs' =>
        simp [List.mapM_cons, hu, hm] at hv
        subst hv
        have := ih (fun u' h' => h u' (List.mem_cons_of_mem _ h')) hc.2 vs' hm
        simp only [sumNat, List.map_cons, List.sum_cons] at this ⊢
        rw [this, word_of_const (h u List.mem_cons_self) hc.1 hu]

theorem sumNat_le (w : Index → F) (ops : List UInt32G) :
    sumNat w ops ≤ ops.length * (2 ^ 32 - 1) := by
  induction ops with
  | nil => simp [sumNat]
  | cons u us ih =>
    simp only [sumNat, List.map_cons, List.sum_cons, List.length_cons] at ih ⊢
    have := (word w u).isLt
    rw [Nat.add_mul, Nat.one_mul, Nat.add_comm]
    omega

theorem addResultBits_snd (rv : Option Nat) (maxValue i : Nat) (coeff : F) (rlc : LC F) :
    Snd (addResultBits rv maxValue i coeff rlc) (fun w r =>
      r.2.2 = i + Nat.size maxValue ∧ r.1.length = Nat.size maxValue ∧
      (∀ b ∈ r.1, b.IsB w ∧ b.isConstant = false) ∧
      r.2.1.eval w = rlc.eval w + coeff * (natOf (r.1.map (Boolean.bit w)) : F)) := by
  induction maxValue using Nat.strongRecOn generalizing i coeff rlc with
  | _ m ih =>
    rw [addResultBits]
    by_cases hm : m = 0
    · rw [dif_pos hm]
      subst hm
      exact Snd.pure fun w _ => ⟨by simp, by simp, by simp, by simp [natOf]⟩
    · rw [dif_neg hm]
      refine (AllocatedBit.alloc_snd _).bind fun b =>
        (ih (m / 2) (by omega) (i + 1) (coeff + coeff) (rlc.addTerm coeff b.variable_)).map ?_
      rintro w _ ⟨bits, rlc', n⟩ ⟨h1, h2, h3, h4⟩ ⟨x, hx⟩
      have hsize : Nat.size m = Nat.size (m / 2) + 1 := by
        conv_lhs => rw [← Nat.bit_bodd_div2 m]
        rw [Nat.size_bit]
        · rw [Nat.div2_val]
        · rw [Nat.bit_bodd_div2]; exact hm
      refine ⟨?_, ?_, ?_, ?_⟩
      · simp only at h1 ⊢; omega
      · simp only [List.length_cons] at h2 ⊢; omega
      · intro b' hb'
        rcases List.mem_cons.mp hb' with rfl | h
        · exact ⟨hx.isB, rfl⟩
        · exact h3 b' h
      · simp only [List.map_cons, natOf] at h4 ⊢
        rw [h4, LC.eval_addTerm]
        have := hx.isB.val_eq
        simp only [Boolean.val] at this
        rw [this]
        push_cast
        ring

theorem addResultBits_cmp (v maxValue i : Nat) : ∀ {cs : CS F} (coeff : F) (rlc : LC F),
    Cmp cs (addResultBits (some v) maxValue i coeff rlc) (fun r cs' =>
      r.2.2 = i + Nat.size maxValue ∧ r.1.length = Nat.size maxValue ∧
      (∀ (j : Nat) (b : Boolean), r.1[j]? = some b → b.Known cs' (v.testBit (i + j))) ∧
      (∀ w : Index → F, cs'.Agrees w → r.2.1.eval w = rlc.eval w +
        coeff * (natOf ((List.range (Nat.size maxValue)).map fun j => v.testBit (i + j)) : F))) := by
  induction maxValue using Nat.strongRecOn generalizing i with
  | _ m ih =>
    intro cs coeff rlc
    rw [addResultBits]
    by_cases hm : m = 0
    · rw [dif_pos hm]
      subst hm
      exact Cmp.pure ⟨by simp, by simp, by simp, by simp [natOf]⟩
    · rw [dif_neg hm]
      refine (AllocatedBit.alloc_cmp (v.testBit i)).bind fun b cs1 e1 hb =>
        (ih (m / 2) (by omega) (i + 1) (coeff + coeff) (rlc.addTerm coeff b.variable_)).map ?_
      rintro ⟨bits, rlc', n⟩ cs2 e2 ⟨h1, h2, h3, h4⟩
      have hsize : Nat.size m = Nat.size (m / 2) + 1 := by
        conv_lhs => rw [← Nat.bit_bodd_div2 m]
        rw [Nat.size_bit]
        · rw [Nat.div2_val]
        · rw [Nat.bit_bodd_div2]; exact hm
      refine ⟨?_, ?_, ?_, ?_⟩
      · simp only at h1 ⊢; omega
      · simp only [List.length_cons] at h2 ⊢; omega
      · intro j b' hb'
        cases j with
        | zero =>
          simp only [List.getElem?_cons_zero, Option.some.injEq] at hb'
          subst hb'
          exact hb.mono e2
        | succ j =>
          simp only [List.getElem?_cons_succ] at hb'
          have := h3 j b' hb'
          rw [show i + (j + 1) = i + 1 + j by omega]
          exact this
      · intro w hw
        simp only at h4 ⊢
        rw [h4 w hw, LC.eval_addTerm, hsize, List.range_succ_eq_map]
        simp only [List.map_cons, List.map_map, natOf]
        have hv : w b.variable_ = if v.testBit i then 1 else 0 := (hb.mono e2).2 w hw
        have hcomp : ((fun j => v.testBit (i + j)) ∘ Nat.succ) = fun j => v.testBit (i + 1 + j) := by
          funext j; simp [Nat.succ_eq_add_one]; congr 1; omega
        rw [hv, hcomp]
        push_cast
        simp only [Nat.add_zero]
        cases v.testBit i <;> simp <;> ring

theorem natOf_testBits (v n : Nat) (h : v < 2 ^ n) :
    natOf ((List.range n).map fun j => v.testBit j) = v := by
  apply Nat.eq_of_testBit_eq
  intro i
  rw [testBit_natOf]
  by_cases hi : i < n
  · simp [List.getD_eq_getElem?_getD, hi]
  · have hv : v.testBit i = false := Nat.testBit_lt_two_pow
      (lt_of_lt_of_le h (Nat.pow_le_pow_right (by omega) (by omega)))
    rw [hv]
    simp only [List.getD_eq_getElem?_getD]
    rw [List.getElem?_eq_none (by simp; omega)]
    rfl

theorem size_bounds (k : Nat) (h2 : 2 ≤ k) (h10 : k ≤ 10) :
    32 ≤ Nat.size (k * (2 ^ 32 - 1)) ∧ Nat.size (k * (2 ^ 32 - 1)) ≤ 36 := by
  constructor
  · by_contra hc
    have : Nat.size (k * (2 ^ 32 - 1)) ≤ 31 := by omega
    have h := Nat.size_le.mp this
    omega
  · apply Nat.size_le.mpr
    omega

/-- Soundness of the adder. -/
theorem addmany_sndM {cap : Nat} (hcap : CapOK F cap) (ops : List UInt32G) :
    SndM (fun w => ∀ u ∈ ops, u.IsW w) (addmany cap ops : MSynth F UInt32G)
      (fun w r => r.IsW w)
      (fun w r => word w r = BitVec.ofNat 32 (sumNat w ops)) := by
  intro s r s' h
  unfold addmany at h
  split at h
  · simp at h
  · rename_i hass
    push Not at hass
    obtain ⟨h64, hlen2, hlen10⟩ := hass
    have hsz := size_bounds ops.length hlen2 hlen10
    -- name the accumulated data
    rcases hX : addOperands ops ((some 0, LC.zero, true) : Option Nat × LC F × Bool) with
      ⟨rv, lc, ac⟩
    simp only [hX] at h
    have hlc : ∀ w : Index → F, w .one = 1 → (∀ u ∈ ops, u.IsW w) →
        lc.eval w = (sumNat w ops : F) := by
      intro w hw hW
      have := addOperands_eval w hw ops hW (some 0) LC.zero true
      rw [hX] at this
      simpa using this
    split at h
    · -- all constant
      rename_i mv hac hmv
      simp only [Except.ok.injEq, Prod.mk.injEq] at h
      obtain ⟨rfl, rfl⟩ := h
      refine ⟨CS.Ext.refl _, fun w hw _ hW hb => ⟨hb, constant_isW w _, fun hs => ⟨hs, ?_⟩⟩⟩
      show word w (constant _) = _
      rw [word_constant]
      have hv := addOperands_value (F := F) ops (some 0) LC.zero true
      rw [hX] at hv
      simp only [Option.bind_some, Nat.zero_add] at hv
      have hcst := addOperands_const (F := F) ops (some 0) LC.zero true
      rw [hX] at hcst
      simp only [Bool.true_and] at hcst
      cases hm : ops.mapM UInt32G.value with
      | none => rw [hv, hm] at hmv; simp at hmv
      | some vs =>
        rw [hv, hm] at hmv
        simp only [Option.map_some, Option.some.injEq] at hmv
        rw [← hmv, sumNat_const ops hW hcst.symm vs hm]
    · -- allocated result
      have key : SndM (fun w => ∀ u ∈ ops, u.IsW w)
          (do
            let (bits, rlc, n) ← MSynth.lift (addResultBits rv (ops.length * (2 ^ 32 - 1)) 0 1
              LC.zero)
            MSynth.enforceEqual cap n lc rlc
            return ⟨bits.take 32, rv.map fun v => BitVec.ofNat 32 v⟩ : MSynth F UInt32G)
          (fun w r => r.IsW w)
          (fun w r => word w r = BitVec.ofNat 32 (sumNat w ops)) := by
        refine (SndM.lift (addResultBits_snd rv _ 0 1 LC.zero)
          (fun w _ _ a ha => ⟨ha, trivial⟩) (P' := fun _ _ => True)).bind ?_
        rintro ⟨bits, rlc, n⟩
        have hnat : ∀ w : Index → F, natOf (bits.map (Boolean.bit w)) < 2 ^ bits.length := by
          intro w
          have := natOf_lt (bits.map (Boolean.bit w))
          simpa using this
        refine SndM.bind (P0 := fun _ _ => True) (P := fun w _ => lc.eval w = rlc.eval w) ?_ ?_
        · refine (enforceEqual_sndM hcap n lc rlc).weaken ?_ (fun _ _ _ _ _ => ⟨trivial, id⟩)
          rintro w hw ⟨hW, h1, h2, h3, h4⟩
          simp only [Nat.zero_add] at h1 h2 h4
          refine ⟨sumNat w ops, natOf (bits.map (Boolean.bit w)), hlc w hw hW, ?_, ?_, ?_⟩
          · simpa using h4
          · rw [h1]
            exact lt_of_le_of_lt (sumNat_le w ops) (Nat.lt_size_self _)
          · rw [h1, ← h2]; exact hnat w
        · intro u
          refine SndM.pure ?_
          rintro w hw ⟨⟨hW, h1, h2, h3, h4⟩, _⟩
          simp only [Nat.zero_add] at h1 h2 h4
          have hl32 : (bits.take 32).length = 32 := by
            rw [List.length_take, h2]; omega
          refine ⟨⟨hl32, fun b hb => (h3 b (List.mem_of_mem_take hb)).1, ?_⟩, ?_⟩
          · intro v hv i b hb c hc
            have := (h3 b (List.mem_of_mem_take (List.mem_of_getElem? hb))).2
            subst hc
            simp [Boolean.isConstant] at this
          · intro heq _
            rw [hlc w hw hW] at heq
            simp only [LC.eval_zero, zero_add, one_mul] at h4
            rw [h4] at heq
            have hcap37 : 36 < cap := by omega
            have hle : 2 ^ Nat.size (ops.length * (2 ^ 32 - 1)) ≤ 2 ^ cap :=
              Nat.pow_le_pow_right (by omega) (by omega)
            have hs := hcap _ _
              (lt_of_lt_of_le (lt_of_le_of_lt (sumNat_le w ops) (Nat.lt_size_self _)) hle)
              (lt_of_lt_of_le (by rw [← h2]; exact hnat w) hle) heq
            apply BitVec.eq_of_toNat_eq
            rw [toNat_word w _ hl32, List.map_take, natOf_take, BitVec.toNat_ofNat, hs]
      exact key s r s' h

theorem Known.isW {cs : CS F} {u : UInt32G} {x : BitVec 32} (h : u.Known cs x)
    {w : Index → F} (hw : cs.Agrees w) : u.IsW w ∧ word w u = x := by
  have hr : u.Rep w x := ⟨h.2.1, fun i b hb => (h.2.2 i b hb).2 w hw⟩
  refine ⟨hr.isW fun v hv i b hb => ?_, hr.word_eq⟩
  rw [h.1] at hv
  cases hv
  exact compat_of_value (h.2.2 i b hb).1

theorem known_values {cs : CS F} {ops : List UInt32G} {xs : List (BitVec 32)}
    (h : List.Forall₂ (fun u x => UInt32G.Known cs u x) ops xs) :
    ops.mapM UInt32G.value = some xs := by
  induction h with
  | nil => rfl
  | cons h _ ih => simp [List.mapM_cons, h.1, ih]

theorem known_sum {cs : CS F} {ops : List UInt32G} {xs : List (BitVec 32)}
    (h : List.Forall₂ (fun u x => UInt32G.Known cs u x) ops xs) {w : Index → F}
    (hw : cs.Agrees w) :
    (∀ u ∈ ops, u.IsW w) ∧ sumNat w ops = (xs.map BitVec.toNat).sum := by
  induction h with
  | nil => exact ⟨by simp, rfl⟩
  | cons h _ ih =>
    obtain ⟨h1, h2⟩ := h.isW hw
    refine ⟨fun u hu => ?_, ?_⟩
    · rcases List.mem_cons.mp hu with rfl | h'
      · exact h1
      · exact ih.1 u h'
    · simp only [sumNat, List.map_cons, List.sum_cons] at ih ⊢
      rw [ih.2, h2]

theorem sum_toNat_le (xs : List (BitVec 32)) :
    (xs.map BitVec.toNat).sum ≤ xs.length * (2 ^ 32 - 1) := by
  induction xs with
  | nil => simp
  | cons x xs ih =>
    simp only [List.map_cons, List.sum_cons, List.length_cons]
    have := x.isLt
    rw [Nat.add_mul, Nat.one_mul, Nat.add_comm]
    omega

/-- Completeness of the adder. -/
theorem addmany_cmpM {cap : Nat} (hcap : 63 ≤ cap) {s : MultiEq F} {ops : List UInt32G}
    {xs : List (BitVec 32)} (hk : List.Forall₂ (fun u x => UInt32G.Known s.cs u x) ops xs)
    (h2 : 2 ≤ ops.length) (h10 : ops.length ≤ 10) :
    CmpM s (addmany cap ops : MSynth F UInt32G) (fun r cs' =>
      r.Known cs' (BitVec.ofNat 32 (xs.map BitVec.toNat).sum)) := by
  have hlen : ops.length = xs.length := hk.length_eq
  have hsz := size_bounds ops.length h2 h10
  unfold addmany
  intro hg
  rcases hX : addOperands ops ((some 0, LC.zero, true) : Option Nat × LC F × Bool) with
      ⟨rv, lc, ac⟩
  have hv := addOperands_value (F := F) ops (some 0) LC.zero true
  rw [hX, known_values hk] at hv
  simp only [Option.bind_some, Nat.zero_add, Option.map_some] at hv
  subst hv
  have hass : ¬ (¬ (64 ≤ cap + 1) ∨ ¬ (2 ≤ ops.length) ∨ ¬ (ops.length ≤ 10)) := by
    push Not; exact ⟨by omega, h2, h10⟩
  simp only [hass, if_false, hX, Option.map_some]
  cases ac with
  | true => exact ⟨_, s, rfl, CS.Ext.refl _, hg, constant_known _ _⟩
  | false =>
    have hsum : (xs.map BitVec.toNat).sum < 2 ^ Nat.size (ops.length * (2 ^ 32 - 1)) := by
      refine lt_of_le_of_lt (sum_toNat_le xs) ?_
      rw [← hlen]
      exact Nat.lt_size_self _
    suffices key : CmpM s (MSynth.lift
        (addResultBits (some (xs.map BitVec.toNat).sum) (ops.length * (2 ^ 32 - 1)) 0 1 LC.zero) >>=
        fun x => do
          MSynth.enforceEqual cap x.2.2 lc x.2.1
          pure (UInt32G.mk (x.1.take 32)
                 (some (BitVec.ofNat 32 (xs.map BitVec.toNat).sum))))
        (fun (r : UInt32G) cs' => r.Known cs' (BitVec.ofNat 32 (xs.map BitVec.toNat).sum)) from key hg
    refine (CmpM.lift (addResultBits_cmp _ _ 0 1 LC.zero)).bind ?_
    rintro ⟨bits, rlc, n⟩ s1 e1 ⟨a1, a2, a3, a4⟩
    simp only [Nat.zero_add] at a1 a2 a3 a4
    refine (enforceEqual_cmpM (show n < cap by omega) ?_).bind fun _ s2 e2 _ => CmpM.pure ?_
    · intro w hw hag
      obtain ⟨hW, hS⟩ := known_sum hk (e1.agrees hag)
      have := addOperands_eval w hw ops hW (some 0) LC.zero true
      rw [hX, hS] at this
      rw [a4 w hag, natOf_testBits _ _ hsum]
      simpa using this
    · have hl32 : (bits.take 32).length = 32 := by rw [List.length_take, a2]; omega
      refine ⟨rfl, hl32, fun i b hb => ?_⟩
      have hi : i < 32 := hl32 ▸ lt_of_getElem? hb
      rw [List.getElem?_take_of_lt hi] at hb
      rw [BitVec.getLsbD_ofNat]
      simp only [hi, decide_true, Bool.true_and]
      exact (a3 i b hb).mono e2

end UInt32G

end Zkp
