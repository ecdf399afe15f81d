/-
A combined soundness-and-completeness judgement for gadgets over bits and words: one proof that a
gadget computes a function covers every satisfying assignment and every honest run.
-/
import Verif.Proof.MultiEq
import Verif.Spec.Words
import Mathlib.Algebra.Field.ZMod

set_option linter.unusedSectionVars false
set_option linter.unusedSimpArgs false

namespace Zkp

variable {F : Type} [Field F]

open UInt32G

theorem capOK_zmod (p : Nat) [Fact p.Prime] : CapOK (ZMod p) (capacity p) := by
  intro a b ha hb h
  have hp : 2 ^ capacity p ≤ p := by
    have h2 : 2 ≤ p := (Fact.out : p.Prime).two_le
    have hs : capacity p < Nat.size p := by
      unfold capacity
      have : 0 < Nat.size p := Nat.size_pos.mpr (by omega)
      omega
    exact Nat.lt_size.mp hs
  have := (ZMod.natCast_eq_natCast_iff a b p).mp h
  rwa [Nat.ModEq, Nat.mod_eq_of_lt (lt_of_lt_of_le ha hp), Nat.mod_eq_of_lt (lt_of_lt_of_le hb hp)]
    at this


theorem wordSum_eq (xs : List (BitVec 32)) :
    wordSum xs = BitVec.ofNat 32 (xs.map BitVec.toNat).sum := by
  induction xs with
  | nil => rfl
  | cons x xs ih =>
    have : wordSum (x :: xs) = x + wordSum xs := rfl
    rw [this, ih]
    apply BitVec.eq_of_toNat_eq
    simp [BitVec.toNat_add]

theorem forall2_denotes {w : Index → F} {ops : List UInt32G} {xs : List (BitVec 32)}
    (h : List.Forall₂ (fun u x => u.Denotes w x) ops xs) :
    (∀ u ∈ ops, u.IsW w) ∧ sumNat w ops = (xs.map BitVec.toNat).sum := by
  induction h with
  | nil => exact ⟨by simp, rfl⟩
  | cons h _ ih =>
    obtain ⟨h1, h2⟩ := (denotes_iff _ _ _).mp h
    refine ⟨?_, ?_⟩
    · intro u hu
      rcases List.mem_cons.mp hu with rfl | h'
      · exact h1
      · exact ih.1 u h'
    · have := ih.2
      simp only [sumNat, List.map_cons, List.sum_cons] at this ⊢
      rw [this, h2]


/-! ### Denotation relations -/

/-- A relation between gadget bits/words and machine bits/words. -/
structure Rel where
  B : Boolean → Bool → Prop
  W : UInt32G → BitVec 32 → Prop

/-- Pointwise implication. -/
def Rel.Le (D D' : Rel) : Prop := (∀ b x, D.B b x → D'.B b x) ∧ (∀ u x, D.W u x → D'.W u x)

/-- Closure properties shared by all denotation relations used below. -/
structure Rel.Good (D : Rel) : Prop where
  constB : ∀ c, D.B (.constant c) c
  const : ∀ v, D.W (constant v) v
  rotr : ∀ u x k, D.W u x → D.W (u.rotr k) (x.rotateRight (k % 32))
  shr : ∀ u x k, D.W u x → D.W (u.shr k) (x >>> (k % 32))
  fromBits : ∀ bits u x, UInt32G.fromBits bits = some u → List.Forall₂ D.B bits (bitsLE x) → D.W u x
  fromBitsBe : ∀ bits u x, UInt32G.fromBitsBe bits = some u → List.Forall₂ D.B bits (bitsBE x) →
    D.W u x
  toBits : ∀ u x, D.W u x → List.Forall₂ D.B u.bits (bitsLE x)

/-- Structural relation: bits are bits, words are words; the values are ignored. -/
def D0 (w : Index → F) : Rel := ⟨fun b _ => b.IsB w, fun u _ => u.IsW w⟩
/-- Denotation under the assignment `w`. -/
def D1 (w : Index → F) : Rel := ⟨fun b x => b.Rep w x, fun u x => u.Denotes w x⟩
/-- Values known in the proving state `cs`. -/
def DK (cs : CS F) : Rel := ⟨fun b x => b.Known cs x, fun u x => u.Known cs x⟩

theorem length_bitsLE (x : BitVec 32) : (bitsLE x).length = 32 := by simp [bitsLE]

theorem getElem?_bitsLE (x : BitVec 32) {i : Nat} (hi : i < 32) :
    (bitsLE x)[i]? = some (x.getLsbD i) := by simp [bitsLE, hi]

theorem forall2_bitsLE_iff {R : Boolean → Bool → Prop} {bits : List Boolean} {x : BitVec 32} :
    List.Forall₂ R bits (bitsLE x) ↔
      bits.length = 32 ∧ ∀ (i : Nat) (b : Boolean), bits[i]? = some b → R b (x.getLsbD i) := by
  rw [List.forall₂_iff_get]
  simp only [length_bitsLE, List.get_eq_getElem]
  constructor
  · rintro ⟨hl, h⟩
    refine ⟨hl, fun i b hb => ?_⟩
    obtain ⟨hi, rfl⟩ := List.getElem?_eq_some_iff.mp hb
    have := h i hi (hl ▸ hi)
    simpa [bitsLE] using this
  · rintro ⟨hl, h⟩
    refine ⟨hl, fun i hi hi' => ?_⟩
    have := h i _ (List.getElem?_eq_getElem hi)
    simpa [bitsLE] using this

theorem forall2_reverse {α β : Type} {R : α → β → Prop} {l : List α} {l' : List β} :
    List.Forall₂ R l.reverse l'.reverse ↔ List.Forall₂ R l l' := List.forall₂_reverse_iff

theorem forall2_bitsBE_iff {R : Boolean → Bool → Prop} {bits : List Boolean} {x : BitVec 32} :
    List.Forall₂ R bits (bitsBE x) ↔ List.Forall₂ R bits.reverse (bitsLE x) := by
  rw [bitsBE, ← forall2_reverse, List.reverse_reverse]

theorem D0_good (w : Index → F) : (D0 w).Good where
  constB c := by cases c <;> simp [D0, Boolean.IsB, Boolean.val]
  const v := constant_isW w v
  rotr _ _ k h := rotr_isW k h
  shr _ _ k h := shr_isW k h
  fromBits bits u x h hb := by
    refine (fromBits_isW h w fun b hb' => ?_).1
    obtain ⟨i, hi⟩ := List.mem_iff_getElem?.mp hb'
    exact (forall2_bitsLE_iff.mp hb).2 i b hi
  fromBitsBe bits u x h hb := by
    refine (fromBitsBe_isW h w fun b hb' => ?_).1
    obtain ⟨i, hi⟩ := List.mem_iff_getElem?.mp (List.mem_reverse.mpr hb')
    exact (forall2_bitsLE_iff.mp (forall2_bitsBE_iff.mp hb)).2 i b hi
  toBits u x h := forall2_bitsLE_iff.mpr ⟨h.len, fun i b hb => h.isB b (List.mem_of_getElem? hb)⟩

theorem D1_good (w : Index → F) : (D1 w).Good where
  constB c := Boolean.rep_constant.mpr rfl
  const v := ⟨constant_rep w v, constant_consistent v⟩
  rotr u x k h := by
    obtain ⟨h1, h2⟩ := (denotes_iff w u x).mp h
    exact (denotes_iff _ _ _).mpr ⟨rotr_isW k h1, by rw [word_rotr k h1, h2]⟩
  shr u x k h := by
    obtain ⟨h1, h2⟩ := (denotes_iff w u x).mp h
    exact (denotes_iff _ _ _).mpr ⟨shr_isW k h1, by rw [word_shr k h1, h2]⟩
  fromBits bits u x h hb := by
    have hb' := forall2_bitsLE_iff.mp hb
    have := fromBits_isW h w fun b hb'' => by
      obtain ⟨i, hi⟩ := List.mem_iff_getElem?.mp hb''
      exact (hb'.2 i b hi).isB
    refine ⟨⟨by rw [this.2]; exact hb'.1, ?_⟩, this.1.cons⟩
    rw [this.2]
    exact hb'.2
  fromBitsBe bits u x h hb := by
    have hb' := forall2_bitsLE_iff.mp (forall2_bitsBE_iff.mp hb)
    have := fromBitsBe_isW h w fun b hb'' => by
      obtain ⟨i, hi⟩ := List.mem_iff_getElem?.mp (List.mem_reverse.mpr hb'')
      exact (hb'.2 i b hi).isB
    refine ⟨⟨by rw [this.2]; exact hb'.1, ?_⟩, this.1.cons⟩
    rw [this.2]
    exact hb'.2
  toBits u x h := forall2_bitsLE_iff.mpr h.rep

theorem DK_good (cs : CS F) : (DK cs).Good where
  constB c := Boolean.known_constant c
  const v := constant_known cs v
  rotr _ _ k h := rotr_known k h
  shr _ _ k h := shr_known k h
  fromBits bits u x h hb := by
    have hb' := forall2_bitsLE_iff.mp hb
    obtain ⟨u', h1, h2, _⟩ := fromBits_known hb'.1 x hb'.2
    rw [h1] at h
    cases h
    exact h2
  fromBitsBe bits u x h hb := by
    have hb' := forall2_bitsLE_iff.mp (forall2_bitsBE_iff.mp hb)
    obtain ⟨u', h1, h2, _⟩ := fromBitsBe_known (by simpa using hb'.1) x hb'.2
    rw [h1] at h
    cases h
    exact h2
  toBits u x h := forall2_bitsLE_iff.mpr h.2

theorem DK_le {cs cs' : CS F} (e : cs.Ext cs') : (DK cs).Le (DK cs') :=
  ⟨fun _ _ h => h.mono e, fun _ _ h => h.mono e⟩

/-- Predicates on denotation relations that survive enlarging the relation. -/
class Mono (P : Rel → Prop) : Prop where
  mono : ∀ D D', D.Le D' → P D → P D'

instance (u : UInt32G) (x : BitVec 32) : Mono fun D => D.W u x := ⟨fun _ _ h => h.2 u x⟩
instance (b : Boolean) (x : Bool) : Mono fun D => D.B b x := ⟨fun _ _ h => h.1 b x⟩
instance (p : Prop) : Mono fun _ => p := ⟨fun _ _ _ h => h⟩
instance (P Q : Rel → Prop) [Mono P] [Mono Q] : Mono fun D => P D ∧ Q D :=
  ⟨fun D D' h hp => ⟨Mono.mono D D' h hp.1, Mono.mono D D' h hp.2⟩⟩
instance {ι : Sort*} (P : ι → Rel → Prop) [∀ i, Mono (P i)] : Mono fun D => ∀ i, P i D :=
  ⟨fun D D' h hp i => Mono.mono D D' h (hp i)⟩
instance {ι : Sort*} (P : ι → Rel → Prop) [∀ i, Mono (P i)] : Mono fun D => ∃ i, P i D :=
  ⟨fun D D' h ⟨i, hp⟩ => ⟨i, Mono.mono D D' h hp⟩⟩
instance (l : List UInt32G) (l' : List (BitVec 32)) : Mono fun D => List.Forall₂ D.W l l' :=
  ⟨fun _ _ h hp => hp.imp h.2⟩
instance (l : List Boolean) (l' : List Bool) : Mono fun D => List.Forall₂ D.B l l' :=
  ⟨fun _ _ h hp => hp.imp h.1⟩

/-! ### The judgements -/

/-- `m`, run inside a batcher on inputs described by `Pre`, always yields a result described by
`R`. -/
structure ImplM {α : Type} (Pre : Rel → Prop) (m : MSynth F α) (R : Rel → α → Prop) : Prop where
  snd : SndM (fun w => Pre (D0 w)) m (fun w a => R (D0 w) a) (fun w a => Pre (D1 w) → R (D1 w) a)
  cmp : ∀ s : MultiEq F, Pre (DK s.cs) → CmpM s m (fun a cs' => R (DK cs') a)

/-- The same for code running directly on a constraint system. -/
structure Impl {α : Type} (Pre : Rel → Prop) (m : Synth F α) (R : Rel → α → Prop) : Prop where
  snd : Snd m (fun w a => (Pre (D0 w) → R (D0 w) a) ∧ (Pre (D1 w) → R (D1 w) a))
  cmp : ∀ cs : CS F, Pre (DK cs) → Cmp cs m (fun a cs' => R (DK cs') a)

namespace ImplM

theorem bind {α β : Type} {Pre : Rel → Prop} [Mono Pre] {m : MSynth F α} {f : α → MSynth F β}
    {R : Rel → α → Prop} {Q : Rel → β → Prop} (hm : ImplM Pre m R)
    (hf : ∀ a, ImplM (fun D => Pre D ∧ R D a) (f a) Q) : ImplM Pre (m >>= f) Q where
  snd := hm.snd.bind fun a => (hf a).snd.weaken (fun _ _ h => h) fun _ _ _ _ h0 =>
    ⟨h0, fun h1 h2 hp => h1 ⟨hp, h2 hp⟩⟩
  cmp s hp := (hm.cmp s hp).bind fun a s' e hr => (hf a).cmp s' ⟨Mono.mono _ _ (DK_le e) hp, hr⟩

theorem pure {α : Type} {Pre : Rel → Prop} {a : α} {R : Rel → α → Prop}
    (h : ∀ D : Rel, D.Good → Pre D → R D a) : ImplM Pre (Pure.pure a : MSynth F α) R where
  snd := SndM.pure fun w _ hp => ⟨h _ (D0_good w) hp, fun hp1 => h _ (D1_good w) hp1⟩
  cmp s hp := CmpM.pure (h _ (DK_good _) hp)

theorem weaken {α : Type} {Pre Pre' : Rel → Prop} [Mono Pre'] {m : MSynth F α}
    {R R' : Rel → α → Prop}
    (hm : ImplM Pre m R) (h1 : ∀ D : Rel, D.Good → Pre' D → Pre D)
    (h2 : ∀ D a, D.Good → Pre' D → R D a → R' D a) : ImplM Pre' m R' where
  snd := hm.snd.weaken (fun w _ h => h1 _ (D0_good w) h) fun w _ hp a h0 =>
    ⟨h2 _ _ (D0_good w) hp h0,
     fun h hp1 => h2 _ _ (D1_good w) hp1 (h (h1 _ (D1_good w) hp1))⟩
  cmp s hp := (hm.cmp s (h1 _ (DK_good _) hp)).weaken fun a cs' e hr =>
    h2 _ _ (DK_good _) (Mono.mono _ _ (DK_le e) hp) hr

theorem pre {α : Type} {Pre Pre' : Rel → Prop} {m : MSynth F α} {R : Rel → α → Prop}
    (hm : ImplM Pre m R) (h1 : ∀ D : Rel, D.Good → Pre' D → Pre D) : ImplM Pre' m R where
  snd := hm.snd.weaken (fun w _ h => h1 _ (D0_good w) h) fun w _ hp a h0 =>
    ⟨h0, fun h hp1 => h (h1 _ (D1_good w) hp1)⟩
  cmp s hp := hm.cmp s (h1 _ (DK_good _) hp)

/-- Facts not depending on the relation can be used to prove the judgement. -/
theorem lift {α : Type} {Pre : Rel → Prop} {m : Synth F α} {R : Rel → α → Prop}
    (hm : Impl Pre m R) : ImplM Pre (MSynth.lift m) R where
  snd := SndM.lift hm.snd fun _ _ hp _ h => ⟨h.1 hp, h.2⟩
  cmp s hp := CmpM.lift (hm.cmp s.cs hp)

theorem foldlM {ι σ τ : Type} {Pre : Rel → Prop} [Mono Pre] {Rs : Rel → σ → τ → Prop}
    [∀ s t, Mono fun D => Rs D s t] {f : σ → ι → MSynth F σ} {g : τ → ι → τ} (l : List ι)
    (hf : ∀ i ∈ l, ∀ s t, ImplM (fun D => Pre D ∧ Rs D s t) (f s i) (fun D s' => Rs D s' (g t i)))
    (s : σ) (t : τ) :
    ImplM (fun D => Pre D ∧ Rs D s t) (l.foldlM f s) (fun D s' => Rs D s' (l.foldl g t)) := by
  induction l generalizing s t with
  | nil => exact pure fun D _ h => h.2
  | cons i l ih =>
    rw [List.foldlM_cons, List.foldl_cons]
    refine (hf i List.mem_cons_self s t).bind fun s' => ?_
    exact (ih (fun j hj => hf j (List.mem_cons_of_mem _ hj)) s' (g t i)).pre
      fun D _ h => ⟨h.1.1, h.2⟩

end ImplM

namespace Impl

theorem bind {α β : Type} {Pre : Rel → Prop} [Mono Pre] {m : Synth F α} {f : α → Synth F β}
    {R : Rel → α → Prop} {Q : Rel → β → Prop} (hm : Impl Pre m R)
    (hf : ∀ a, Impl (fun D => Pre D ∧ R D a) (f a) Q) : Impl Pre (m >>= f) Q where
  snd := hm.snd.bind fun a => (hf a).snd.weaken fun _ _ _ h hr =>
    ⟨fun hp => h.1 ⟨hp, hr.1 hp⟩, fun hp => h.2 ⟨hp, hr.2 hp⟩⟩
  cmp s hp := (hm.cmp s hp).bind fun a s' e hr => (hf a).cmp s' ⟨Mono.mono _ _ (DK_le e) hp, hr⟩

theorem pure {α : Type} {Pre : Rel → Prop} {a : α} {R : Rel → α → Prop}
    (h : ∀ D : Rel, D.Good → Pre D → R D a) : Impl Pre (Pure.pure a : Synth F α) R where
  snd := Snd.pure fun w _ => ⟨h _ (D0_good w), h _ (D1_good w)⟩
  cmp cs hp := Cmp.pure (h _ (DK_good _) hp)

theorem pre {α : Type} {Pre Pre' : Rel → Prop} {m : Synth F α} {R : Rel → α → Prop}
    (hm : Impl Pre m R) (h1 : ∀ D : Rel, D.Good → Pre' D → Pre D) : Impl Pre' m R where
  snd := hm.snd.weaken fun w _ _ h => ⟨fun hp => h.1 (h1 _ (D0_good w) hp),
    fun hp => h.2 (h1 _ (D1_good w) hp)⟩
  cmp cs hp := hm.cmp cs (h1 _ (DK_good _) hp)

theorem weaken {α : Type} {Pre Pre' : Rel → Prop} [Mono Pre'] {m : Synth F α}
    {R R' : Rel → α → Prop}
    (hm : Impl Pre m R) (h1 : ∀ D : Rel, D.Good → Pre' D → Pre D)
    (h2 : ∀ D a, D.Good → Pre' D → R D a → R' D a) : Impl Pre' m R' where
  snd := hm.snd.weaken fun w _ a h =>
    ⟨fun hp => h2 _ _ (D0_good w) hp (h.1 (h1 _ (D0_good w) hp)),
     fun hp => h2 _ _ (D1_good w) hp (h.2 (h1 _ (D1_good w) hp))⟩
  cmp s hp := (hm.cmp s (h1 _ (DK_good _) hp)).weaken fun a cs' e hr =>
    h2 _ _ (DK_good _) (Mono.mono _ _ (DK_le e) hp) hr

theorem foldlM {ι κ σ τ : Type} {Pre : Rel → Prop} [Mono Pre] {Rs : Rel → σ → τ → Prop}
    [∀ s t, Mono fun D => Rs D s t] {Ri : Rel → ι → κ → Prop} [∀ s t, Mono fun D => Ri D s t]
    {f : σ → ι → Synth F σ} {g : τ → κ → τ} (l : List ι) (k : List κ) (hlen : l.length = k.length)
    (hf : ∀ i ∈ l, ∀ j ∈ k, ∀ s t, Impl (fun D => Pre D ∧ Ri D i j ∧ Rs D s t) (f s i)
      (fun D s' => Rs D s' (g t j)))
    (s : σ) (t : τ) :
    Impl (fun D => Pre D ∧ List.Forall₂ (Ri D) l k ∧ Rs D s t) (l.foldlM f s)
      (fun D s' => Rs D s' (k.foldl g t)) := by
  induction l generalizing k s t with
  | nil =>
    obtain rfl : k = [] := List.length_eq_zero_iff.mp hlen.symm
    exact pure fun D _ h => h.2.2
  | cons i l ih =>
    obtain ⟨j, k, rfl⟩ : ∃ j k', k = j :: k' := by
      cases k with
      | nil => simp at hlen
      | cons j k => exact ⟨j, k, rfl⟩
    rw [List.foldlM_cons, List.foldl_cons]
    have hmono : Mono fun D => List.Forall₂ (Ri D) (i :: l) (j :: k) :=
      ⟨fun D D' h hp => hp.imp fun a b => Mono.mono (P := fun D => Ri D a b) D D' h⟩
    refine bind (R := fun D s' => Rs D s' (g t j))
      ((hf i List.mem_cons_self j List.mem_cons_self s t).pre fun D _ h =>
      ⟨h.1, (List.forall₂_cons.mp h.2.1).1, h.2.2⟩) fun s' => ?_
    exact (ih k (by simpa using hlen) (fun i hi j hj => hf i (List.mem_cons_of_mem _ hi) j
      (List.mem_cons_of_mem _ hj)) s' (g t j)).pre
      fun D _ h => ⟨h.1.1, (List.forall₂_cons.mp h.1.2.1).2, h.2⟩

theorem D1_le_D0 (w : Index → F) : (D1 w).Le (D0 w) :=
  ⟨fun _ _ h => h.isB, fun u x h => ((denotes_iff w u x).mp h).1⟩

theorem scoped' {α : Type} {Pre : Rel → Prop} [Mono Pre] {m : MSynth F α} {R : Rel → α → Prop}
    [∀ a, Mono fun D => R D a] (hm : ImplM Pre m R) : Impl Pre (MSynth.scoped m) R where
  snd := (Snd.scoped hm.snd).weaken fun w _ a h =>
    ⟨fun hp => (h hp).1, fun hp => (h (Mono.mono _ _ (D1_le_D0 w) hp)).2 hp⟩
  cmp cs hp := Cmp.scoped (hm.cmp (MultiEq.new cs) hp) fun a c c' e h =>
    Mono.mono (P := fun D => R D a) _ _ (DK_le e) h

end Impl

/-! ### Word gadgets -/

theorem xor_impl (a b : UInt32G) (x y : BitVec 32) :
    Impl (fun D => D.W a x ∧ D.W b y) (UInt32G.xor a b : Synth F UInt32G)
      (fun D r => D.W r (x ^^^ y)) where
  snd := (xor_snd a b).weaken fun w _ r h => by
    refine ⟨fun hp => (h hp.1 hp.2).1, fun hp => ?_⟩
    obtain ⟨ha, hx⟩ := (denotes_iff _ _ _).mp hp.1
    obtain ⟨hb, hy⟩ := (denotes_iff _ _ _).mp hp.2
    exact (denotes_iff _ _ _).mpr ⟨(h ha hb).1, by rw [(h ha hb).2, hx, hy]⟩
  cmp cs hp := xor_cmp hp.1 hp.2

theorem ch_impl (a b c : UInt32G) (x y z : BitVec 32) :
    Impl (fun D => D.W a x ∧ D.W b y ∧ D.W c z) (UInt32G.sha256Ch a b c : Synth F UInt32G)
      (fun D r => D.W r ((x &&& y) ^^^ (~~~x &&& z))) where
  snd := (sha256Ch_snd a b c).weaken fun w _ r h => by
    refine ⟨fun hp => (h hp.1 hp.2.1 hp.2.2).1, fun hp => ?_⟩
    obtain ⟨ha, hx⟩ := (denotes_iff _ _ _).mp hp.1
    obtain ⟨hb, hy⟩ := (denotes_iff _ _ _).mp hp.2.1
    obtain ⟨hc, hz⟩ := (denotes_iff _ _ _).mp hp.2.2
    exact (denotes_iff _ _ _).mpr ⟨(h ha hb hc).1, by rw [(h ha hb hc).2, hx, hy, hz]⟩
  cmp cs hp := sha256Ch_cmp hp.1 hp.2.1 hp.2.2

theorem maj_impl (a b c : UInt32G) (x y z : BitVec 32) :
    Impl (fun D => D.W a x ∧ D.W b y ∧ D.W c z) (UInt32G.sha256Maj a b c : Synth F UInt32G)
      (fun D r => D.W r ((x &&& y) ^^^ (x &&& z) ^^^ (y &&& z))) where
  snd := (sha256Maj_snd a b c).weaken fun w _ r h => by
    refine ⟨fun hp => (h hp.1 hp.2.1 hp.2.2).1, fun hp => ?_⟩
    obtain ⟨ha, hx⟩ := (denotes_iff _ _ _).mp hp.1
    obtain ⟨hb, hy⟩ := (denotes_iff _ _ _).mp hp.2.1
    obtain ⟨hc, hz⟩ := (denotes_iff _ _ _).mp hp.2.2
    exact (denotes_iff _ _ _).mpr ⟨(h ha hb hc).1, by rw [(h ha hb hc).2, hx, hy, hz]⟩
  cmp cs hp := sha256Maj_cmp hp.1 hp.2.1 hp.2.2

theorem addmany_impl {cap : Nat} (hcap : CapOK F cap) (h63 : 63 ≤ cap) (ops : List UInt32G)
    (xs : List (BitVec 32)) :
    ImplM (fun D => List.Forall₂ D.W ops xs ∧ 2 ≤ ops.length ∧ ops.length ≤ 10)
      (addmany cap ops : MSynth F UInt32G) (fun D r => D.W r (wordSum xs)) where
  snd := by
    have key : ∀ w : Index → F, List.Forall₂ (D0 w).W ops xs → ∀ u ∈ ops, u.IsW w := by
      intro w hp u hu
      induction hp with
      | nil => simp at hu
      | cons h _ ih =>
        rcases List.mem_cons.mp hu with rfl | h'
        · exact h
        · exact ih h'
    refine (addmany_sndM hcap ops).weaken (fun w _ hp => key w hp.1) fun w _ _ r h0 =>
      ⟨h0, fun h hp => ?_⟩
    have := forall2_denotes hp.1
    exact (denotes_iff _ _ _).mpr ⟨h0, by rw [h, this.2, wordSum_eq]⟩
  cmp s hp := by
    have := addmany_cmpM h63 hp.1 hp.2.1 hp.2.2
    rw [← wordSum_eq] at this
    exact this

end Zkp
