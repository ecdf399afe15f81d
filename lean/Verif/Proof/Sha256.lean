/- SHA-256 circuit: every loop body implements the corresponding step of the specification. -/
import Verif.Proof.Impl
import Verif.Model.Sha256
import Verif.Spec.Sha256

set_option linter.unusedSectionVars false
set_option linter.unusedSimpArgs false

namespace Zkp

variable {F : Type} [Field F]

/-! ### Bit strings -/

theorem foldl_bits (bs : List Bool) (n : Nat) :
    bs.foldl (fun n b => 2 * n + b.toNat) n = n * 2 ^ bs.length + natOf bs.reverse := by
  induction bs generalizing n with
  | nil => simp [natOf]
  | cons b bs ih =>
    simp only [List.foldl_cons, ih, List.reverse_cons, natOf_append, List.length_cons,
      List.length_reverse, natOf, Nat.pow_succ]
    ring

theorem bitsLE_wordLE {bs : List Bool} (h : bs.length = 32) : bitsLE (wordLE bs) = bs := by
  apply List.ext_getElem
  · rw [length_bitsLE, h]
  · intro i h1 h2
    have hi : i < 32 := by rw [← h]; exact h2
    simp only [bitsLE, List.getElem_map, List.getElem_range, wordLE, wordBE, foldl_bits,
      List.reverse_reverse]
    rw [BitVec.getLsbD_ofNat, Nat.zero_mul, Nat.zero_add, testBit_natOf]
    simp [hi, List.getD_eq_getElem?_getD, h2]

theorem bitsBE_wordBE {bs : List Bool} (h : bs.length = 32) : bitsBE (wordBE bs) = bs := by
  have := bitsLE_wordLE (bs := bs.reverse) (by simpa using h)
  rw [wordLE, List.reverse_reverse] at this
  rw [bitsBE, this, List.reverse_reverse]

theorem chunks_nil {α : Type} (n : Nat) : chunks n ([] : List α) = [] := by
  unfold chunks; simp

theorem chunks_cons {α : Type} {n : Nat} (hn : n ≠ 0) {l : List α} (hl : l ≠ []) :
    chunks n l = l.take n :: chunks n (l.drop n) := by
  rw [chunks]; simp [hn, hl]

theorem chunks_length_of_dvd {α : Type} {n : Nat} (hn : n ≠ 0) {l : List α} (h : n ∣ l.length) :
    ∀ c ∈ chunks n l, c.length = n := by
  induction hk : l.length using Nat.strong_induction_on generalizing l with
  | _ k ih =>
    by_cases hl : l = []
    · subst hl; rw [chunks_nil]; simp
    · rw [chunks_cons hn hl]
      have hpos : 0 < l.length := List.length_pos_iff.mpr hl
      have hle : n ≤ l.length := Nat.le_of_dvd hpos h
      intro c hc
      rcases List.mem_cons.mp hc with rfl | hc
      · simp [hle]
      · exact ih (l.drop n).length (by simp; omega) (by simpa using Nat.dvd_sub h (dvd_refl n)) rfl
          c hc

theorem forall2_chunks {α β : Type} {R : α → β → Prop} {l : List α} {l' : List β} (n : Nat)
    (h : List.Forall₂ R l l') : List.Forall₂ (List.Forall₂ R) (chunks n l) (chunks n l') := by
  by_cases hn : n = 0
  · unfold chunks; simp [hn]
  induction hk : l.length using Nat.strong_induction_on generalizing l l' with
  | _ k ih =>
    by_cases hl : l = []
    · subst hl
      obtain rfl := List.forall₂_nil_left_iff.mp h
      simp [chunks_nil]
    · have hl' : l' ≠ [] := by
        rintro rfl
        exact hl (List.forall₂_nil_right_iff.mp h)
      rw [chunks_cons hn hl, chunks_cons hn hl']
      have hpos : 0 < l.length := List.length_pos_iff.mpr hl
      exact .cons (List.forall₂_take n h)
        (ih (l.drop n).length (by simp; omega) (List.forall₂_drop n h) rfl)

theorem Impl.panic {α : Type} {Pre : Rel → Prop} {R : Rel → α → Prop}
    (h : ∀ D : Rel, D.Good → Pre D → False) : Impl Pre (panicS : Synth F α) R where
  snd := Snd.panic _
  cmp cs hp := (h _ (DK_good cs) hp).elim

theorem mapM_some {α β : Type} {f : α → Option β} {l : List α} {r : List β} :
    l.mapM f = some r ↔ List.Forall₂ (fun a b => f a = some b) l r := by
  induction l generalizing r with
  | nil => simp [eq_comm]
  | cons a l ih =>
    rw [List.mapM_cons]
    constructor
    · intro h
      simp only [Option.bind_eq_bind, Option.bind_eq_some_iff, Option.pure_def,
        Option.some.injEq] at h
      obtain ⟨b, hb, bs, hbs, rfl⟩ := h
      exact .cons hb (ih.mp hbs)
    · intro h
      cases h with
      | cons h1 h2 => simp [h1, ih.mpr h2]

theorem exists_mapM {α β : Type} {f : α → Option β} {l : List α} (h : ∀ a ∈ l, ∃ b, f a = some b) :
    ∃ r, l.mapM f = some r := by
  induction l with
  | nil => exact ⟨[], rfl⟩
  | cons a l ih =>
    obtain ⟨b, hb⟩ := h a List.mem_cons_self
    obtain ⟨r, hr⟩ := ih fun a ha => h a (List.mem_cons_of_mem _ ha)
    exact ⟨b :: r, by simp [List.mapM_cons, hb, hr]⟩

theorem fromBitsBe_exists {bits : List Boolean} (h : bits.length = 32) :
    ∃ u, UInt32G.fromBitsBe bits = some u := by
  unfold UInt32G.fromBitsBe; rw [if_pos h]; exact ⟨_, rfl⟩

theorem fromBits_exists {bits : List Boolean} (h : bits.length = 32) :
    ∃ u, UInt32G.fromBits bits = some u := by
  unfold UInt32G.fromBits; rw [if_pos h]; exact ⟨_, rfl⟩

theorem parse_rel {D : Rel} (hD : D.Good) {l : List (List Boolean)} {l' : List (List Bool)}
    (h : List.Forall₂ (List.Forall₂ D.B) l l') (hl : ∀ c ∈ l, c.length = 32) {ws : List UInt32G}
    (hws : l.mapM UInt32G.fromBitsBe = some ws) : List.Forall₂ D.W ws (l'.map wordBE) := by
  rw [mapM_some] at hws
  induction h generalizing ws with
  | nil =>
    obtain rfl := List.forall₂_nil_left_iff.mp hws
    exact .nil
  | @cons a b l l' h _ ih =>
    cases hws with
    | cons h1 h2 =>
      refine .cons (hD.fromBitsBe _ _ _ h1 ?_) (ih (fun c hc => hl c (List.mem_cons_of_mem _ hc)) h2)
      rw [bitsBE_wordBE]
      · exact h
      · rw [← h.length_eq]; exact hl _ List.mem_cons_self

theorem parse_impl (input : List Boolean) (bits : List Bool) (hl : input.length = 512) :
    Impl (fun D => List.Forall₂ D.B input bits)
      (orPanic ((chunks 32 input).mapM UInt32G.fromBitsBe) : Synth F (List UInt32G))
      (fun D w => List.Forall₂ D.W w ((chunks 32 bits).map wordBE)) := by
  have hc := chunks_length_of_dvd (n := 32) (by omega) (l := input) (by rw [hl]; decide)
  obtain ⟨ws, hws⟩ := exists_mapM (f := UInt32G.fromBitsBe) (l := chunks 32 input)
    fun c h => fromBitsBe_exists (hc c h)
  rw [hws]
  exact Impl.pure fun D hD h => parse_rel hD (forall2_chunks 32 h) hc hws

theorem ImplM.exists {α ι : Type} [Inhabited ι] {Pre : ι → Rel → Prop} [∀ i, Mono (Pre i)]
    {m : MSynth F α} {R : Rel → α → Prop}
    (h : ∀ i, ImplM (Pre i) m R) : ImplM (fun D => ∃ i, Pre i D) m R where
  snd := by
    intro s a s' hr
    refine ⟨((h default).snd s a s' hr).1, fun w hw hs ⟨i, hp⟩ hb => ?_⟩
    obtain ⟨q1, q2, q3⟩ := ((h i).snd s a s' hr).2 w hw hs hp hb
    refine ⟨q1, q2, fun hsat => ⟨(q3 hsat).1, fun ⟨j, hj⟩ => ?_⟩⟩
    obtain ⟨_, _, q3⟩ := ((h j).snd s a s' hr).2 w hw hs
      (Mono.mono _ _ (Impl.D1_le_D0 w) hj) hb
    exact (q3 hsat).2 hj
  cmp s := fun ⟨i, hp⟩ => (h i).cmp s hp

namespace Sha

theorem at_rel {D : Rel} (hD : D.Good) {w : List UInt32G} {W : List (BitVec 32)}
    (h : List.Forall₂ D.W w W) (i : Nat) : D.W (at_ w i) (W.getD i 0) := by
  unfold at_
  induction h generalizing i with
  | nil => exact hD.const 0
  | cons h _ ih =>
    cases i with
    | zero => simpa using h
    | succ i => simpa using ih i

theorem forall2_snoc {α β : Type} {R : α → β → Prop} {l : List α} {l' : List β} {a : α} {b : β}
    (h : List.Forall₂ R l l') (hab : R a b) : List.Forall₂ R (l ++ [a]) (l' ++ [b]) :=
  List.rel_append h (.cons hab .nil)

theorem extendStep_impl {cap : Nat} (hcap : CapOK F cap) (h63 : 63 ≤ cap) (w : List UInt32G)
    (W : List (BitVec 32)) (i : Nat) :
    ImplM (fun D => List.Forall₂ D.W w W) (extendStep cap w i : MSynth F (List UInt32G))
      (fun D w' => List.Forall₂ D.W w' (Sha256.extend W i)) := by
  unfold extendStep
  refine ImplM.bind (R := fun D r => D.W r ((W.getD (i - 15) 0).rotateRight 7 ^^^
      (W.getD (i - 15) 0).rotateRight 18)) ((ImplM.lift (xor_impl _ _ _ _)).pre fun D hD h =>
    ⟨hD.rotr _ _ 7 (at_rel hD h _), hD.rotr _ _ 18 (at_rel hD h _)⟩) fun s0 => ?_
  refine ImplM.bind (R := fun D r => D.W r (Sha256.sigma0 (W.getD (i - 15) 0)))
    ((ImplM.lift (xor_impl _ _ _ _)).pre fun D hD h =>
    ⟨h.2, hD.shr _ _ 3 (at_rel hD h.1 _)⟩) fun s0 => ?_
  refine ImplM.bind (R := fun D r => D.W r ((W.getD (i - 2) 0).rotateRight 17 ^^^
      (W.getD (i - 2) 0).rotateRight 19)) ((ImplM.lift (xor_impl _ _ _ _)).pre fun D hD h =>
    ⟨hD.rotr _ _ 17 (at_rel hD h.1.1 _), hD.rotr _ _ 19 (at_rel hD h.1.1 _)⟩) fun s1 => ?_
  refine ImplM.bind (R := fun D r => D.W r (Sha256.sigma1 (W.getD (i - 2) 0)))
    ((ImplM.lift (xor_impl _ _ _ _)).pre fun D hD h =>
    ⟨h.2, hD.shr _ _ 10 (at_rel hD h.1.1.1 _)⟩) fun s1 => ?_
  refine ImplM.bind ((addmany_impl hcap h63 _ [W.getD (i - 16) 0,
    Sha256.sigma0 (W.getD (i - 15) 0), W.getD (i - 7) 0, Sha256.sigma1 (W.getD (i - 2) 0)]).pre
    fun D hD h => ⟨.cons (at_rel hD h.1.1.1.1 _) (.cons h.1.1.2 (.cons (at_rel hD h.1.1.1.1 _)
      (.cons h.2 .nil))), by simp, by simp⟩) fun tmp => ?_
  refine ImplM.pure fun D hD h => forall2_snoc h.1.1.1.1.1 ?_
  have e : wordSum [W.getD (i - 16) 0, Sha256.sigma0 (W.getD (i - 15) 0), W.getD (i - 7) 0,
      Sha256.sigma1 (W.getD (i - 2) 0)] = Sha256.sigma1 (W.getD (i - 2) 0) + W.getD (i - 7) 0 +
      Sha256.sigma0 (W.getD (i - 15) 0) + W.getD (i - 16) 0 := by
    simp only [wordSum, List.foldr_cons, List.foldr_nil, BitVec.ofNat_eq_ofNat, BitVec.add_zero]
    ac_rfl
  rw [← e]
  exact h.2

/-- What a possibly deferred word stands for. -/
def Maybe.RelM (D : Rel) (m : Maybe) (x : BitVec 32) : Prop :=
  match m with
  | .concrete v => D.W v x
  | .deferred vs => ∃ xs, (List.Forall₂ D.W vs xs ∧ 2 ≤ vs.length ∧ vs.length ≤ 9) ∧ wordSum xs = x

instance (m : Maybe) (x : BitVec 32) : Mono fun D => Maybe.RelM D m x := by
  cases m with
  | concrete v => exact inferInstanceAs (Mono fun D => D.W v x)
  | deferred vs =>
    exact inferInstanceAs (Mono fun D => ∃ xs, (List.Forall₂ D.W vs xs ∧ 2 ≤ vs.length ∧ vs.length ≤ 9)
      ∧ wordSum xs = x)

theorem compute_impl {cap : Nat} (hcap : CapOK F cap) (h63 : 63 ≤ cap) (m : Maybe) (x : BitVec 32) :
    ImplM (fun D => m.RelM D x) (m.compute cap [] : MSynth F UInt32G) (fun D r => D.W r x) := by
  cases m with
  | concrete v => exact ImplM.pure fun D _ h => h
  | deferred vs =>
    simp only [Maybe.compute, List.append_nil]
    refine ImplM.exists fun xs => ?_
    refine (addmany_impl hcap h63 vs xs).weaken
      (fun D _ h => ⟨h.1.1, h.1.2.1, by omega⟩) fun D r _ h hr => ?_
    rw [← h.2]; exact hr

theorem wordSum_append (xs ys : List (BitVec 32)) : wordSum (xs ++ ys) = wordSum xs + wordSum ys := by
  induction xs with
  | nil => simp [wordSum]
  | cons x xs ih =>
    have e1 : wordSum (x :: xs ++ ys) = x + wordSum (xs ++ ys) := rfl
    have e2 : wordSum (x :: xs) = x + wordSum xs := rfl
    rw [e1, e2, ih, BitVec.add_assoc]

/-- The final `compute` with the old hash word; the variable is deferred by then. -/
theorem computeFinal_impl {cap : Nat} (hcap : CapOK F cap) (h63 : 63 ≤ cap) (vs : List UInt32G)
    (h0 : UInt32G) (x y : BitVec 32) :
    ImplM (fun D => (Maybe.deferred vs).RelM D x ∧ D.W h0 y)
      ((Maybe.deferred vs).compute cap [h0] : MSynth F UInt32G) (fun D r => D.W r (y + x)) := by
  simp only [Maybe.compute]
  have : ImplM (fun D => ∃ xs, (((List.Forall₂ D.W vs xs ∧ 2 ≤ vs.length ∧ vs.length ≤ 9) ∧
      wordSum xs = x) ∧ D.W h0 y))
      (UInt32G.addmany cap (vs ++ [h0]) : MSynth F UInt32G) (fun D r => D.W r (y + x)) := by
    refine ImplM.exists fun xs => ?_
    refine (addmany_impl hcap h63 (vs ++ [h0]) (xs ++ [y])).weaken
      (fun D _ h => ⟨forall2_snoc h.1.1.1 h.2, by simp; omega, by simp; omega⟩) fun D r _ h hr => ?_
    rw [← h.1.2, BitVec.add_comm]
    rw [wordSum_append] at hr
    simpa [wordSum] using hr
  exact this.pre fun D _ h => by
    obtain ⟨⟨xs, h1⟩, h2⟩ := h
    exact ⟨xs, h1, h2⟩

/-- The working variables of the circuit stand for those of the specification. -/
structure St.RelS (D : Rel) (s : St) (t : Sha256.St) : Prop where
  a : s.a.RelM D t.a
  b : D.W s.b t.b
  c : D.W s.c t.c
  d : D.W s.d t.d
  e : s.e.RelM D t.e
  f : D.W s.f t.f
  g : D.W s.g t.g
  h : D.W s.h t.h

instance (s : St) (t : Sha256.St) : Mono fun D => s.RelS D t :=
  ⟨fun D D' h hs => ⟨Mono.mono (P := fun D => s.a.RelM D t.a) D D' h hs.a, h.2 _ _ hs.b,
    h.2 _ _ hs.c, h.2 _ _ hs.d,
    Mono.mono (P := fun D => s.e.RelM D t.e) D D' h hs.e, h.2 _ _ hs.f, h.2 _ _ hs.g,
    h.2 _ _ hs.h⟩⟩

theorem K_eq : roundConstants = Sha256.K := by decide +kernel
theorem IV_eq : IV = Sha256.H0 := by decide +kernel

theorem round_impl {cap : Nat} (hcap : CapOK F cap) (h63 : 63 ≤ cap) (w : List UInt32G)
    (W : List (BitVec 32)) (i : Nat) (s : St) (t : Sha256.St) :
    ImplM (fun D => List.Forall₂ D.W w W ∧ s.RelS D t) (round cap w s i : MSynth F St)
      (fun D s' => s'.RelS D (Sha256.round (Sha256.K.getD i 0) (W.getD i 0) t) ∧
        (∃ v, s'.a = .deferred v) ∧ ∃ v, s'.e = .deferred v) := by
  unfold round
  refine ImplM.bind ((compute_impl hcap h63 s.e t.e).pre fun D _ h => h.2.e) fun newE => ?_
  refine ImplM.bind (R := fun D r => D.W r (t.e.rotateRight 6 ^^^ t.e.rotateRight 11))
    ((ImplM.lift (xor_impl _ _ _ _)).pre fun D hD h =>
    ⟨hD.rotr _ _ 6 h.2, hD.rotr _ _ 11 h.2⟩) fun s1 => ?_
  refine ImplM.bind (R := fun D r => D.W r (Sha256.bigSigma1 t.e))
    ((ImplM.lift (xor_impl _ _ _ _)).pre fun D hD h =>
    ⟨h.2, hD.rotr _ _ 25 h.1.2⟩) fun s1' => ?_
  refine ImplM.bind (R := fun D r => D.W r (Sha256.Ch t.e t.f t.g))
    ((ImplM.lift (ch_impl _ _ _ _ _ _)).pre fun D hD h =>
    ⟨h.1.1.2, h.1.1.1.2.f, h.1.1.1.2.g⟩) fun ch => ?_
  refine ImplM.bind ((compute_impl hcap h63 s.a t.a).pre fun D _ h => h.1.1.1.1.2.a) fun newA => ?_
  refine ImplM.bind (R := fun D r => D.W r (t.a.rotateRight 2 ^^^ t.a.rotateRight 13))
    ((ImplM.lift (xor_impl _ _ _ _)).pre fun D hD h =>
    ⟨hD.rotr _ _ 2 h.2, hD.rotr _ _ 13 h.2⟩) fun s0 => ?_
  refine ImplM.bind (R := fun D r => D.W r (Sha256.bigSigma0 t.a))
    ((ImplM.lift (xor_impl _ _ _ _)).pre fun D hD h =>
    ⟨h.2, hD.rotr _ _ 22 h.1.2⟩) fun s0' => ?_
  refine ImplM.bind (R := fun D r => D.W r (Sha256.Maj t.a t.b t.c))
    ((ImplM.lift (maj_impl _ _ _ _ _ _)).pre fun D hD h =>
    ⟨h.1.1.2, h.1.1.1.1.1.1.1.2.b, h.1.1.1.1.1.1.1.2.c⟩) fun maj => ?_
  refine ImplM.pure fun D hD h => ?_
  obtain ⟨⟨⟨⟨⟨⟨⟨⟨⟨hw, hs⟩, hE⟩, _⟩, hs1⟩, hch⟩, hA⟩, _⟩, hs0⟩, hmaj⟩ := h
  have hk : D.W (UInt32G.constant (roundConstants.getD i 0)) (Sha256.K.getD i 0) := by
    rw [K_eq]; exact hD.const _
  have hwi := at_rel hD hw i
  refine ⟨⟨?_, hA, hs.b, hs.c, ?_, hE, hs.f, hs.g⟩, ⟨_, rfl⟩, ⟨_, rfl⟩⟩
  · refine ⟨_, ⟨.cons hs.h (.cons hs1 (.cons hch (.cons hk (.cons hwi (.cons hs0
      (.cons hmaj .nil)))))), by simp, by simp⟩, ?_⟩
    simp only [wordSum, List.foldr_cons, List.foldr_nil, BitVec.ofNat_eq_ofNat, BitVec.add_zero,
      Sha256.round]
    ac_rfl
  · refine ⟨_, ⟨.cons hs.h (.cons hs1 (.cons hch (.cons hk (.cons hwi (.cons hs.d .nil))))),
      by simp, by simp⟩, ?_⟩
    simp only [wordSum, List.foldr_cons, List.foldr_nil, BitVec.ofNat_eq_ofNat, BitVec.add_zero,
      Sha256.round]
    ac_rfl

/-- The eight words of a state. -/
def words (s : Sha256.St) : List (BitVec 32) := [s.a, s.b, s.c, s.d, s.e, s.f, s.g, s.h]

theorem main_impl {cap : Nat} (hcap : CapOK F cap) (h63 : 63 ≤ cap) (w : List UInt32G)
    (M : List (BitVec 32)) (h0 h1 h2 h3 h4 h5 h6 h7 : UInt32G) (H : Sha256.St) :
    ImplM (fun D => List.Forall₂ D.W w M ∧
        List.Forall₂ D.W [h0, h1, h2, h3, h4, h5, h6, h7] (words H))
      (do
        let w ← (List.range' 16 48).foldlM (extendStep cap) w
        let st ← (List.range 64).foldlM (round cap w)
          ⟨.concrete h0, h1, h2, h3, .concrete h4, h5, h6, h7⟩
        let r0 ← st.a.compute cap [h0]
        let r1 ← UInt32G.addmany cap [h1, st.b]
        let r2 ← UInt32G.addmany cap [h2, st.c]
        let r3 ← UInt32G.addmany cap [h3, st.d]
        let r4 ← st.e.compute cap [h4]
        let r5 ← UInt32G.addmany cap [h5, st.f]
        let r6 ← UInt32G.addmany cap [h6, st.g]
        let r7 ← UInt32G.addmany cap [h7, st.h]
        return [r0, r1, r2, r3, r4, r5, r6, r7] : MSynth F (List UInt32G))
      (fun D out => List.Forall₂ D.W out (words (Sha256.compress H M))) := by
  refine ImplM.bind (R := fun D w' => List.Forall₂ D.W w' (Sha256.schedule M))
    ((ImplM.foldlM (Pre := fun _ => True) (Rs := fun D w W => List.Forall₂ D.W w W)
      (List.range' 16 48) (fun i _ s t => (extendStep_impl hcap h63 s t i).pre fun D _ h => h.2)
      w M).pre fun D _ h => ⟨trivial, h.1⟩) fun w' => ?_
  generalize hW : Sha256.schedule M = W
  generalize hT : (List.range 64).foldl
    (fun s t => Sha256.round (Sha256.K.getD t 0) (W.getD t 0) s) H = T
  refine ImplM.bind (R := fun D s' => s'.RelS D T ∧
        (∃ v, s'.a = .deferred v) ∧ ∃ v, s'.e = .deferred v) ?_ fun st => ?_
  · have e : List.range 64 = List.range 63 ++ [63] := List.range_succ
    rw [e, List.foldl_append] at hT
    rw [e, List.foldlM_append]
    subst hT
    refine ImplM.bind ((ImplM.foldlM (Pre := fun D => List.Forall₂ D.W w' W)
      (Rs := fun D s t => s.RelS D t) (List.range 63)
      (g := fun s t => Sha256.round (Sha256.K.getD t 0) (W.getD t 0) s)
      (fun i _ s t => (round_impl hcap h63 w' W i s t).weaken (fun D _ h => h)
        fun D a _ _ h => h.1) _ H).pre fun D _ h => ?_) fun s => ?_
    · obtain ⟨⟨_, h2⟩, h3⟩ := h
      simp only [words, List.forall₂_cons, List.forall₂_nil_right_iff, and_true] at h2
      exact ⟨h3, h2.1, h2.2.1, h2.2.2.1, h2.2.2.2.1, h2.2.2.2.2.1, h2.2.2.2.2.2.1,
        h2.2.2.2.2.2.2.1, h2.2.2.2.2.2.2.2⟩
    · simp only [List.foldlM_cons, List.foldlM_nil, List.foldl_cons, List.foldl_nil, bind_pure]
      exact (round_impl hcap h63 w' W 63 s _).pre fun D _ h => ⟨h.1.2, h.2⟩
  obtain ⟨a, b, c, d, e, f, g, h⟩ := st
  simp only
  have hadd : ∀ (u v : UInt32G) (x y : BitVec 32),
      ImplM (fun D => D.W u x ∧ D.W v y) (UInt32G.addmany cap [u, v] : MSynth F UInt32G)
        (fun D r => D.W r (x + y)) := fun u v x y =>
    (addmany_impl hcap h63 [u, v] [x, y]).weaken
      (fun D _ h => ⟨.cons h.1 (.cons h.2 .nil), by simp, by simp⟩)
      fun D r _ _ h => by simpa [wordSum] using h
  have hfin : ∀ (m : Maybe) (u : UInt32G) (x y : BitVec 32),
      ImplM (fun D => (m.RelM D x ∧ ∃ v, m = .deferred v) ∧ D.W u y)
        (m.compute cap [u] : MSynth F UInt32G) (fun D r => D.W r (y + x)) := by
    intro m u x y
    cases m with
    | concrete v => exact ImplM.pure fun D _ h => by obtain ⟨⟨_, v', h⟩, _⟩ := h; cases h
    | deferred vs => exact (computeFinal_impl hcap h63 vs u x y).pre fun D _ h => ⟨h.1.1, h.2⟩
  have key : ∀ (P : Rel → Prop) [Mono P], (∀ D, P D → (List.Forall₂ D.W
      [h0, h1, h2, h3, h4, h5, h6, h7] (words H)) ∧ (St.mk a b c d e f g h).RelS D T ∧
        (∃ v, a = .deferred v) ∧ ∃ v, e = .deferred v) →
      ImplM P (do
        let r0 ← a.compute cap [h0]
        let r1 ← UInt32G.addmany cap [h1, b]
        let r2 ← UInt32G.addmany cap [h2, c]
        let r3 ← UInt32G.addmany cap [h3, d]
        let r4 ← e.compute cap [h4]
        let r5 ← UInt32G.addmany cap [h5, f]
        let r6 ← UInt32G.addmany cap [h6, g]
        let r7 ← UInt32G.addmany cap [h7, h]
        return [r0, r1, r2, r3, r4, r5, r6, r7] : MSynth F (List UInt32G))
      (fun D out => List.Forall₂ D.W out (words (Sha256.compress H M))) := by
    intro P _ hP
    have hP' : ∀ D, P D → (D.W h0 H.a ∧ D.W h1 H.b ∧ D.W h2 H.c ∧ D.W h3 H.d ∧ D.W h4 H.e ∧
        D.W h5 H.f ∧ D.W h6 H.g ∧ D.W h7 H.h) ∧ (St.mk a b c d e f g h).RelS D T ∧
        (∃ v, a = .deferred v) ∧ ∃ v, e = .deferred v := by
      intro D h
      obtain ⟨h2, h3⟩ := hP D h
      simp only [words, List.forall₂_cons, List.forall₂_nil_right_iff, and_true] at h2
      exact ⟨h2, h3⟩
    refine ImplM.bind ((hfin a h0 T.a H.a).pre fun D _ h => ⟨⟨(hP' D h).2.1.a, (hP' D h).2.2.1⟩,
      (hP' D h).1.1⟩) fun r0 => ?_
    refine ImplM.bind ((hadd h1 b H.b T.b).pre fun D _ h => ⟨(hP' D h.1).1.2.1,
      (hP' D h.1).2.1.b⟩) fun r1 => ?_
    refine ImplM.bind ((hadd h2 c H.c T.c).pre fun D _ h => ⟨(hP' D h.1.1).1.2.2.1,
      (hP' D h.1.1).2.1.c⟩) fun r2 => ?_
    refine ImplM.bind ((hadd h3 d H.d T.d).pre fun D _ h => ⟨(hP' D h.1.1.1).1.2.2.2.1,
      (hP' D h.1.1.1).2.1.d⟩) fun r3 => ?_
    refine ImplM.bind ((hfin e h4 T.e H.e).pre fun D _ h => ⟨⟨(hP' D h.1.1.1.1).2.1.e,
      (hP' D h.1.1.1.1).2.2.2⟩, (hP' D h.1.1.1.1).1.2.2.2.2.1⟩) fun r4 => ?_
    refine ImplM.bind ((hadd h5 f H.f T.f).pre fun D _ h => ⟨(hP' D h.1.1.1.1.1).1.2.2.2.2.2.1,
      (hP' D h.1.1.1.1.1).2.1.f⟩) fun r5 => ?_
    refine ImplM.bind ((hadd h6 g H.g T.g).pre fun D _ h => ⟨(hP' D h.1.1.1.1.1.1).1.2.2.2.2.2.2.1,
      (hP' D h.1.1.1.1.1.1).2.1.g⟩) fun r6 => ?_
    refine ImplM.bind ((hadd h7 h H.h T.h).pre fun D _ h =>
      ⟨(hP' D h.1.1.1.1.1.1.1).1.2.2.2.2.2.2.2, (hP' D h.1.1.1.1.1.1.1).2.1.h⟩) fun r7 => ?_
    refine ImplM.pure fun D _ hh => ?_
    obtain ⟨⟨⟨⟨⟨⟨⟨⟨hp, q0⟩, q1⟩, q2⟩, q3⟩, q4⟩, q5⟩, q6⟩, q7⟩ := hh
    have hc : Sha256.compress H M = ⟨H.a + T.a, H.b + T.b, H.c + T.c, H.d + T.d, H.e + T.e,
        H.f + T.f, H.g + T.g, H.h + T.h⟩ := by
      simp only [Sha256.compress, hW, hT]
    rw [hc]
    exact .cons q0 (.cons q1 (.cons q2 (.cons q3 (.cons q4 (.cons q5 (.cons q6 (.cons q7 .nil)))))))
  exact key _ fun D h => ⟨h.1.1.2, h.2⟩

theorem forall2_words_length {R : UInt32G → BitVec 32 → Prop} {cur : List UInt32G} {H : Sha256.St}
    (h : List.Forall₂ R cur (words H)) : cur.length = 8 := h.length_eq

theorem compression_impl {cap : Nat} (hcap : CapOK F cap) (h63 : 63 ≤ cap) (input : List Boolean)
    (bits : List Bool) (cur : List UInt32G) (H : Sha256.St) (hl : input.length = 512) :
    Impl (fun D => List.Forall₂ D.B input bits ∧ List.Forall₂ D.W cur (words H))
      (compression cap input cur : Synth F (List UInt32G))
      (fun D out => List.Forall₂ D.W out
        (words (Sha256.compress H ((chunks 32 bits).map wordBE)))) := by
  unfold compression
  rw [if_pos hl]
  split
  · refine Impl.bind ((parse_impl input bits hl).pre fun D _ h => h.1) fun w => ?_
    exact Impl.scoped' ((main_impl hcap h63 w _ _ _ _ _ _ _ _ _ H).pre fun D _ h => ⟨h.2, h.1.2⟩)
  · rename_i hne
    refine Impl.panic fun D _ h => ?_
    have := h.2
    simp only [words, List.forall₂_cons_right_iff, List.forall₂_nil_right_iff] at this
    obtain ⟨h0, l0, _, ⟨h1, l1, _, ⟨h2, l2, _, ⟨h3, l3, _, ⟨h4, l4, _, ⟨h5, l5, _, ⟨h6, l6, _,
      ⟨h7, l7, _, e7, e6⟩, e5⟩, e4⟩, e3⟩, e2⟩, e1⟩, e0⟩, e⟩ := this
    subst e7 e6 e5 e4 e3 e2 e1 e0
    exact hne _ _ _ _ _ _ _ _ e

theorem getIv_rel {D : Rel} (hD : D.Good) : List.Forall₂ D.W getIv (words Sha256.iv) := by
  have e : words Sha256.iv = IV := by decide +kernel
  rw [e]
  unfold getIv
  generalize IV = l
  induction l with
  | nil => exact .nil
  | cons x l ih => exact .cons (hD.const x) ih

theorem toBits_rel {D : Rel} (hD : D.Good) {l : List UInt32G} {xs : List (BitVec 32)}
    (h : List.Forall₂ D.W l xs) :
    List.Forall₂ D.B (l.flatMap UInt32G.intoBitsBe) (xs.flatMap bitsBE) := by
  induction h with
  | nil => exact .nil
  | cons h _ ih =>
    simp only [List.flatMap_cons]
    exact List.rel_append (forall2_reverse.mpr (hD.toBits _ _ h)) ih

theorem words_toBits (s : Sha256.St) : (words s).flatMap bitsBE = s.toBits := rfl

theorem blockNoPadding_impl {cap : Nat} (hcap : CapOK F cap) (h63 : 63 ≤ cap)
    (input : List Boolean) (bits : List Bool) (hl : input.length = 512) :
    Impl (fun D => List.Forall₂ D.B input bits)
      (blockNoPadding cap input : Synth F (List Boolean))
      (fun D out => List.Forall₂ D.B out
        (Sha256.compress Sha256.iv ((chunks 32 bits).map wordBE)).toBits) := by
  unfold blockNoPadding
  rw [if_pos hl]
  refine Impl.bind ((compression_impl hcap h63 input bits getIv Sha256.iv hl).pre
    fun D hD h => ⟨h, getIv_rel hD⟩) fun out => ?_
  exact Impl.pure fun D hD h => toBits_rel hD h.2

theorem padZeros_eq (l : List Boolean) :
    padZeros l = l ++ List.replicate ((448 + 512 - l.length % 512) % 512) (.constant false) := by
  induction hk : (512 - (l.length + 64) % 512) % 512 using Nat.strong_induction_on generalizing l with
  | _ k ih =>
    unfold padZeros
    by_cases h : (l.length + 64) % 512 ≠ 0
    · rw [dif_pos h, ih _ (by simp only [List.length_append, List.length_singleton]; omega) _ rfl]
      simp only [List.length_append, List.length_singleton, List.append_assoc, List.singleton_append]
      rw [← List.replicate_succ]
      congr 2
      omega
    · rw [dif_neg h]
      have : (448 + 512 - l.length % 512) % 512 = 0 := by omega
      rw [this]; simp

theorem forall2_constants {D : Rel} (hD : D.Good) (bs : List Bool) :
    List.Forall₂ D.B (bs.map Boolean.constant) bs := by
  induction bs with
  | nil => exact .nil
  | cons b bs ih => exact .cons (hD.constB b) ih

theorem sha256_impl {cap : Nat} (hcap : CapOK F cap) (h63 : 63 ≤ cap) (input : List Boolean)
    (msg : List Bool) (hlen : input.length = msg.length) (h8 : input.length % 8 = 0) :
    Impl (fun D => List.Forall₂ D.B input msg) (sha256 cap input : Synth F (List Boolean))
      (fun D out => List.Forall₂ D.B out (Sha256.hash msg)) := by
  unfold sha256
  rw [if_pos h8]
  simp only [padZeros_eq]
  have hpad : input ++ [Boolean.constant true] ++
      List.replicate ((448 + 512 - (input ++ [Boolean.constant true]).length % 512) % 512)
        (Boolean.constant false) ++
      ((List.range 64).reverse.map fun i => Boolean.constant (input.length.testBit i)) =
      input ++ ([true] ++ List.replicate ((448 + 512 - (input.length + 1) % 512) % 512) false ++
        (List.range 64).reverse.map fun i => input.length.testBit i).map Boolean.constant := by
    simp [List.map_append, List.map_map, Function.comp_def]
  rw [hpad]
  generalize hP : input ++ ([true] ++ List.replicate ((448 + 512 - (input.length + 1) % 512) % 512)
    false ++ (List.range 64).reverse.map fun i => input.length.testBit i).map Boolean.constant = P
  have hrel : ∀ D : Rel, D.Good → List.Forall₂ D.B input msg →
      List.Forall₂ D.B P (Sha256.pad msg) := by
    intro D hD h
    rw [← hP, Sha256.pad, ← hlen]
    simp only [List.append_assoc]
    exact List.rel_append h (forall2_constants hD _)
  have hPl : P.length % 512 = 0 := by
    rw [← hP]
    simp only [List.length_append, List.length_map, List.length_singleton, List.length_replicate,
      List.length_reverse, List.length_range]
    omega
  rw [if_pos hPl]
  have hd : 512 ∣ P.length := Nat.dvd_of_mod_eq_zero hPl
  have hplen : (chunks 512 P).length = (chunks 512 (Sha256.pad msg)).length := by
    refine (forall2_chunks 512 (R := fun _ _ => True) ?_).length_eq
    have : P.length = (Sha256.pad msg).length := by
      rw [← hP, Sha256.pad, ← hlen]
      simp [hlen]
    exact List.forall₂_iff_get.mpr ⟨this, fun _ _ _ => trivial⟩
  have hc := chunks_length_of_dvd (n := 512) (by omega) hd
  refine Impl.bind (R := fun D cur => List.Forall₂ D.W cur (words
      ((chunks 512 (Sha256.pad msg)).foldl
        (fun s block => Sha256.compress s ((chunks 32 block).map wordBE)) Sha256.iv)))
    ((Impl.foldlM (Pre := fun _ => True) (Ri := fun D i j => List.Forall₂ D.B i j)
      (Rs := fun D cur s => List.Forall₂ D.W cur (words s)) _ _ hplen
      (fun i hi j _ s t => (compression_impl hcap h63 i j s t (hc i hi)).pre
        fun D _ h => h.2) getIv Sha256.iv).pre
      fun D hD h => ⟨trivial, forall2_chunks 512 (hrel D hD h), getIv_rel hD⟩) fun cur => ?_
  exact Impl.pure fun D hD h => toBits_rel hD h.2

end Sha
end Zkp
