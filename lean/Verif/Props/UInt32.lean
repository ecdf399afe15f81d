/- C11 – C13: 32-bit words, multi-operand addition, batched equalities. -/
import Verif.Proof.Impl
import Verif.Props.Boolean

set_option linter.unusedSectionVars false
set_option linter.unusedSimpArgs false

namespace Zkp

variable {F : Type} [Field F]

open UInt32G

/-! ### C11 – word operations -/

/-- Operations that emit no constraints: constants, rotations, shifts, conversion from and to bit
lists.  Rotation and shift amounts are arbitrary and taken modulo 32. -/
theorem C11_free_word_ops (w : Index → F) :
    (∀ v : BitVec 32, (constant v).Denotes w v) ∧
    (∀ (u : UInt32G) (x : BitVec 32) (k : Nat), u.Denotes w x → (u.rotr k).Denotes w (x.rotateRight (k % 32))) ∧
    (∀ (u : UInt32G) (x : BitVec 32) (k : Nat), u.Denotes w x → (u.shr k).Denotes w (x >>> (k % 32))) ∧
    (∀ bits u, fromBits bits = some u → (∀ b ∈ bits, b.val w = 0 ∨ b.val w = 1) →
      u.intoBits = bits ∧ ∃ x, u.Denotes w x) ∧
    (∀ bits u, fromBitsBe bits = some u → (∀ b ∈ bits, b.val w = 0 ∨ b.val w = 1) →
      u.intoBitsBe = bits ∧ ∃ x, u.Denotes w x) ∧
    (∀ bits, (fromBits bits = none ↔ bits.length ≠ 32) ∧
      (fromBitsBe bits = none ↔ bits.length ≠ 32)) := by
  refine ⟨fun v => ⟨constant_rep w v, constant_consistent v⟩, ?_, ?_, ?_, ?_, ?_⟩
  · intro u x k h
    obtain ⟨h1, h2⟩ := (denotes_iff w u x).mp h
    exact (denotes_iff _ _ _).mpr ⟨rotr_isW k h1, by rw [word_rotr k h1, h2]⟩
  · intro u x k h
    obtain ⟨h1, h2⟩ := (denotes_iff w u x).mp h
    exact (denotes_iff _ _ _).mpr ⟨shr_isW k h1, by rw [word_shr k h1, h2]⟩
  · intro bits u h hb
    obtain ⟨h1, h2⟩ := fromBits_isW h w hb
    exact ⟨h2, _, (denotes_iff _ _ _).mpr ⟨h1, rfl⟩⟩
  · intro bits u h hb
    obtain ⟨h1, h2⟩ := fromBitsBe_isW h w hb
    exact ⟨by simp [intoBitsBe, h2], _, (denotes_iff _ _ _).mpr ⟨h1, rfl⟩⟩
  · intro bits
    constructor
    · unfold fromBits; split <;> simp_all
    · unfold fromBitsBe; split <;> simp_all

/-- Operations that emit constraints, for every satisfying assignment. -/
theorem C11_word_gates_sound (cs : CS F) (w : Index → F) (hone : w .one = 1) :
    (∀ v r cs', UInt32G.alloc v cs = .ok (r, cs') → cs'.Sat w → cs.Sat w ∧ ∃ x, r.Denotes w x) ∧
    (∀ a b r cs' x y, xor a b cs = .ok (r, cs') → cs'.Sat w →
      a.Denotes w x → b.Denotes w y → cs.Sat w ∧ r.Denotes w (x ^^^ y)) ∧
    (∀ a b c r cs' x y z, sha256Ch a b c cs = .ok (r, cs') → cs'.Sat w →
      a.Denotes w x → b.Denotes w y → c.Denotes w z →
      cs.Sat w ∧ r.Denotes w ((x &&& y) ^^^ (~~~x &&& z))) ∧
    (∀ a b c r cs' x y z, sha256Maj a b c cs = .ok (r, cs') → cs'.Sat w →
      a.Denotes w x → b.Denotes w y → c.Denotes w z →
      cs.Sat w ∧ r.Denotes w ((x &&& y) ^^^ (x &&& z) ^^^ (y &&& z))) := by
  refine ⟨?_, ?_, ?_, ?_⟩
  · intro v r cs' h hs
    obtain ⟨e, p⟩ := UInt32G.alloc_snd v cs r cs' h
    exact ⟨e.sat hs, _, (denotes_iff _ _ _).mpr ⟨p w hone hs, rfl⟩⟩
  · intro a b r cs' x y h hs ha hb
    obtain ⟨e, p⟩ := xor_snd a b cs r cs' h
    obtain ⟨ha', rfl⟩ := (denotes_iff _ _ _).mp ha
    obtain ⟨hb', rfl⟩ := (denotes_iff _ _ _).mp hb
    exact ⟨e.sat hs, (denotes_iff _ _ _).mpr (p w hone hs ha' hb')⟩
  · intro a b c r cs' x y z h hs ha hb hc
    obtain ⟨e, p⟩ := sha256Ch_snd a b c cs r cs' h
    obtain ⟨ha', rfl⟩ := (denotes_iff _ _ _).mp ha
    obtain ⟨hb', rfl⟩ := (denotes_iff _ _ _).mp hb
    obtain ⟨hc', rfl⟩ := (denotes_iff _ _ _).mp hc
    exact ⟨e.sat hs, (denotes_iff _ _ _).mpr (p w hone hs ha' hb' hc')⟩
  · intro a b c r cs' x y z h hs ha hb hc
    obtain ⟨e, p⟩ := sha256Maj_snd a b c cs r cs' h
    obtain ⟨ha', rfl⟩ := (denotes_iff _ _ _).mp ha
    obtain ⟨hb', rfl⟩ := (denotes_iff _ _ _).mp hb
    obtain ⟨hc', rfl⟩ := (denotes_iff _ _ _).mp hc
    exact ⟨e.sat hs, (denotes_iff _ _ _).mpr (p w hone hs ha' hb' hc')⟩

/-- Honest runs: every word gadget succeeds, the constraints hold for the recorded values, and the
cached value and all bits of the result agree with the machine operation. -/
theorem C11_word_gates_complete (cs : CS F) (hgood : cs.Good) :
    (∀ v, (constant v).Known cs v) ∧
    (∀ (u : UInt32G) (x : BitVec 32) (k : Nat), u.Known cs x → (u.rotr k).Known cs (x.rotateRight (k % 32))) ∧
    (∀ (u : UInt32G) (x : BitVec 32) (k : Nat), u.Known cs x → (u.shr k).Known cs (x >>> (k % 32))) ∧
    (∀ v, ∃ r cs', UInt32G.alloc (some v) cs = .ok (r, cs') ∧ cs.Ext cs' ∧ cs'.Good ∧ r.Known cs' v) ∧
    (∀ a b x y, a.Known cs x → b.Known cs y →
      ∃ r cs', xor a b cs = .ok (r, cs') ∧ cs.Ext cs' ∧ cs'.Good ∧ r.Known cs' (x ^^^ y)) ∧
    (∀ a b c x y z, a.Known cs x → b.Known cs y → c.Known cs z →
      ∃ r cs', sha256Ch a b c cs = .ok (r, cs') ∧ cs.Ext cs' ∧ cs'.Good ∧
        r.Known cs' ((x &&& y) ^^^ (~~~x &&& z))) ∧
    (∀ a b c x y z, a.Known cs x → b.Known cs y → c.Known cs z →
      ∃ r cs', sha256Maj a b c cs = .ok (r, cs') ∧ cs.Ext cs' ∧ cs'.Good ∧
        r.Known cs' ((x &&& y) ^^^ (x &&& z) ^^^ (y &&& z))) :=
  ⟨constant_known cs, fun _ _ k h => rotr_known k h, fun _ _ k h => shr_known k h,
   fun v => UInt32G.alloc_cmp v hgood, fun _ _ _ _ ha hb => xor_cmp ha hb hgood,
   fun _ _ _ _ _ _ ha hb hc => sha256Ch_cmp ha hb hc hgood,
   fun _ _ _ _ _ _ ha hb hc => sha256Maj_cmp ha hb hc hgood⟩

/-- The cached value computed from a bit list is the number written by the bits. -/
theorem C11_from_bits_value (cs : CS F) (bits : List Boolean) (hl : bits.length = 32)
    (x : BitVec 32)
    (hb : ∀ (i : Nat) (b : Boolean), bits[i]? = some b → b.Known cs (x.getLsbD i)) :
    (∃ u, fromBits bits = some u ∧ u.Known cs x ∧ u.intoBits = bits) ∧
    (∃ u, fromBitsBe bits.reverse = some u ∧ u.Known cs x ∧ u.intoBits = bits) := by
  obtain ⟨u, h1, h2, h3⟩ := fromBits_known hl x hb
  refine ⟨⟨u, h1, h2, h3⟩, ?_⟩
  obtain ⟨u, h1, h2, h3⟩ := fromBitsBe_known (bits := bits.reverse) (by simpa using hl) x
    (by simpa using hb)
  exact ⟨u, h1, h2, by simpa [intoBits] using h3⟩

/-- C11, concrete case: a constant word denotes its value under any assignment, and rotating
`0x80000001` right by 33 gives `0xC0000000`. -/
example : (constant 0x80000001#32).Denotes exW 0x80000001#32 ∧
    ((constant 0x80000001#32).rotr 33).Denotes exW 0xC0000000#32 :=
  ⟨(C11_free_word_ops exW).1 _,
   (C11_free_word_ops exW).2.1 _ _ 33 ((C11_free_word_ops exW).1 _)⟩

/-- C11, concrete case for the gates: in the fresh system, words can be allocated (so `Known` words
exist that are not constants). -/
example : ∃ r cs', UInt32G.alloc (some 5#32) (CS.new true : CS (ZMod 7)) = .ok (r, cs') ∧ cs'.Good ∧
    r.Known cs' 5#32 := by
  obtain ⟨r, cs', h, _, g, k⟩ := UInt32G.alloc_cmp (F := ZMod 7) (cs := CS.new true) 5#32 CS.good_new
  exact ⟨r, cs', h, g, k⟩

/-! ### C13 – batched equalities -/

/-- What a circuit can do with a batcher: enforce an equality declared to fit in `n` bits, or add
an ordinary constraint. -/
inductive BatchOp (F : Type) where
  | eq (n : Nat) (lhs rhs : LC F)
  | constraint (a b c : LC F)

/-- Run the operations on a batcher. -/
def runBatch (cap : Nat) : List (BatchOp F) → MSynth F Unit
  | [] => pure ()
  | .eq n l r :: ops => do MSynth.enforceEqual cap n l r; runBatch cap ops
  | .constraint a b c :: ops => do MSynth.lift (enforce a b c); runBatch cap ops

/-- The meaning of an operation: the equality, or the constraint. -/
def BatchOp.Holds (w : Index → F) : BatchOp F → Prop
  | .eq _ l r => l.eval w = r.eval w
  | .constraint a b c => a.eval w * b.eval w = c.eval w

/-- Both sides of the equality are numbers below `2^n`, as declared. -/
def BatchOp.Fits (w : Index → F) : BatchOp F → Prop
  | .eq n l r => ∃ x y : Nat, l.eval w = x ∧ r.eval w = y ∧ x < 2 ^ n ∧ y < 2 ^ n
  | .constraint _ _ _ => True

theorem runBatch_sndM {cap : Nat} (hcap : CapOK F cap) (ops : List (BatchOp F)) :
    SndM (fun w => ∀ o ∈ ops, o.Fits w) (runBatch cap ops) (fun _ _ => True)
      (fun w _ => ∀ o ∈ ops, o.Holds w) := by
  induction ops with
  | nil => exact SndM.pure fun w _ _ => ⟨trivial, by simp⟩
  | cons o ops ih =>
    cases o with
    | eq n l r =>
      refine SndM.bind (P0 := fun _ _ => True) (P := fun w _ => l.eval w = r.eval w) ?_ ?_
      · exact (enforceEqual_sndM hcap n l r).weaken
          (fun w _ h => h _ List.mem_cons_self) (fun _ _ _ _ _ => ⟨trivial, id⟩)
      · intro _
        refine ih.weaken (fun w _ h o ho => h.1 o (List.mem_cons_of_mem _ ho)) ?_
        intro w _ _ _ _
        refine ⟨trivial, fun h1 h2 o ho => ?_⟩
        rcases List.mem_cons.mp ho with rfl | h
        · exact h2
        · exact h1 o h
    | constraint a b c =>
      refine SndM.bind (P0 := fun _ _ => True) (P := fun w _ => a.eval w * b.eval w = c.eval w)
        (SndM.lift (Snd.enforce a b c) fun _ _ _ _ h => ⟨trivial, h⟩) ?_
      intro _
      refine ih.weaken (fun w _ h o ho => h.1 o (List.mem_cons_of_mem _ ho)) ?_
      intro w _ _ _ _
      refine ⟨trivial, fun h1 h2 o ho => ?_⟩
      rcases List.mem_cons.mp ho with rfl | h
      · exact h2
      · exact h1 o h

theorem enforceEqual_satM {cap n : Nat} {l r : LC F} {s s' : MultiEq F} {u : Unit}
    (h : MSynth.enforceEqual cap n l r s = .ok (u, s')) {w : Index → F} (hw : w .one = 1)
    (hs : s.SatM w) (he : l.eval w = r.eval w) : s'.SatM w := by
  unfold MSynth.enforceEqual at h
  obtain ⟨t, ht, htS⟩ : ∃ t : MultiEq F,
      t = (if cap ≤ s.bitsUsed + n then s.accumulate else s) ∧ t.SatM w := by
    refine ⟨_, rfl, ?_⟩
    split
    · exact ⟨(accumulate_sat hw).mpr hs, rfl⟩
    · exact hs
  simp only [MultiEq.enforceEqual, ← ht] at h
  split at h
  · simp at h
  · rename_i m hm
    split at hm
    · simp only [Option.some.injEq] at hm
      simp only [Except.ok.injEq, Prod.mk.injEq] at h
      obtain ⟨_, rfl⟩ := h
      subst hm
      refine ⟨htS.1, ?_⟩
      simp [htS.2, he]
    · simp at hm

theorem runBatch_satM {cap : Nat} (ops : List (BatchOp F)) {s s' : MultiEq F}
    (h : runBatch cap ops s = .ok ((), s')) {w : Index → F} (hw : w .one = 1) (hs : s.SatM w)
    (he : ∀ o ∈ ops, o.Holds w) : s'.SatM w := by
  induction ops generalizing s with
  | nil =>
    obtain ⟨_, rfl⟩ := MSynth.pure_ok.mp h
    exact hs
  | cons o ops ih =>
    have he' := he o List.mem_cons_self
    cases o with
    | eq n l r =>
      obtain ⟨u, s1, h1, h2⟩ := MSynth.bind_ok.mp h
      exact ih h2 (enforceEqual_satM h1 hw hs he') fun o ho => he o (List.mem_cons_of_mem _ ho)
    | constraint a b c =>
      obtain ⟨u, s1, h1, h2⟩ := MSynth.bind_ok.mp h
      refine ih h2 ?_ fun o ho => he o (List.mem_cons_of_mem _ ho)
      simp only [MSynth.lift, enforce, Except.ok.injEq, Prod.mk.injEq] at h1
      obtain ⟨_, rfl⟩ := h1
      refine ⟨fun k hk => ?_, hs.2⟩
      simp only [List.mem_append, List.mem_singleton] at hk
      rcases hk with hk | rfl
      · exact hs.1 k hk
      · exact he'

/-- For every sequence of operations and every assignment whose sides respect the declared widths:
the emitted constraints hold exactly when the earlier ones, every equality and every interleaved
constraint hold. -/
theorem C13_batch_exact (p : Nat) [Fact p.Prime] (ops : List (BatchOp (ZMod p)))
    (cs cs' : CS (ZMod p)) (hrun : MSynth.scoped (runBatch (capacity p) ops) cs = .ok ((), cs'))
    (w : Index → ZMod p) (hone : w .one = 1) (hfit : ∀ o ∈ ops, o.Fits w) :
    cs'.Sat w ↔ cs.Sat w ∧ ∀ o ∈ ops, o.Holds w := by
  constructor
  · intro hs
    obtain ⟨e, q⟩ := (Snd.scoped (runBatch_sndM (capOK_zmod p) ops)) cs () cs' hrun
    exact ⟨e.sat hs, (q w hone hs hfit).2⟩
  · rintro ⟨hs, he⟩
    unfold MSynth.scoped at hrun
    cases hx : runBatch (capacity p) ops (MultiEq.new cs) with
    | error e => simp [hx] at hrun
    | ok r =>
      obtain ⟨_, s'⟩ := r
      simp only [hx, Except.ok.injEq, Prod.mk.injEq, true_and] at hrun
      subst hrun
      have hsat := runBatch_satM ops hx hone (s := MultiEq.new cs) ⟨hs, rfl⟩ he
      unfold MultiEq.drop
      split
      · exact (accumulate_sat hone).mpr hsat
      · exact hsat.1

/-- The run succeeds exactly when every declared width is below the capacity (otherwise it
panics). -/
theorem C13_batch_succeeds (cap : Nat) (ops : List (BatchOp F)) (cs : CS F) :
    (∃ cs', MSynth.scoped (runBatch cap ops) cs = .ok ((), cs')) ↔
      ∀ n l r, BatchOp.eq n l r ∈ ops → n < cap := by
  have step : ∀ (n : Nat) (l r : LC F) (s : MultiEq F),
      (∃ s', MSynth.enforceEqual cap n l r s = .ok ((), s')) ↔ n < cap := by
    intro n l r s
    simp only [MSynth.enforceEqual, MultiEq.enforceEqual]
    by_cases hc : cap ≤ s.bitsUsed + n
    · rw [if_pos hc]
      have : s.accumulate.bitsUsed = 0 := rfl
      rw [this, Nat.zero_add]
      by_cases hn : n < cap
      · rw [if_pos hn]; exact ⟨fun _ => hn, fun _ => ⟨_, rfl⟩⟩
      · rw [if_neg hn]; exact ⟨fun ⟨_, h⟩ => by simp at h, fun h => absurd h hn⟩
    · rw [if_neg hc, if_pos (by omega)]
      exact ⟨fun _ => by omega, fun _ => ⟨_, rfl⟩⟩
  have main : ∀ (ops : List (BatchOp F)) (s : MultiEq F),
      (∃ s', runBatch cap ops s = .ok ((), s')) ↔ ∀ n l r, BatchOp.eq n l r ∈ ops → n < cap := by
    intro ops
    induction ops with
    | nil => intro s; exact ⟨fun _ => by simp, fun _ => ⟨s, rfl⟩⟩
    | cons o ops ih =>
      intro s
      cases o with
      | eq n l r =>
        constructor
        · rintro ⟨s', h⟩
          obtain ⟨u, s1, h1, h2⟩ := MSynth.bind_ok.mp h
          have := (step n l r s).mp ⟨s1, h1⟩
          intro n' l' r' hm
          rcases List.mem_cons.mp hm with h' | h'
          · cases h'; exact this
          · exact (ih s1).mp ⟨s', h2⟩ n' l' r' h'
        · intro h
          obtain ⟨s1, h1⟩ := (step n l r s).mpr (h n l r List.mem_cons_self)
          obtain ⟨s', h2⟩ := (ih s1).mpr fun n' l' r' hm => h n' l' r' (List.mem_cons_of_mem _ hm)
          exact ⟨s', MSynth.bind_ok.mpr ⟨(), s1, h1, h2⟩⟩
      | constraint a b c =>
        constructor
        · rintro ⟨s', h⟩
          obtain ⟨u, s1, h1, h2⟩ := MSynth.bind_ok.mp h
          intro n' l' r' hm
          rcases List.mem_cons.mp hm with h' | h'
          · cases h'
          · exact (ih s1).mp ⟨s', h2⟩ n' l' r' h'
        · intro h
          obtain ⟨s', h2⟩ := (ih _).mpr fun n' l' r' hm => h n' l' r' (List.mem_cons_of_mem _ hm)
          exact ⟨s', MSynth.bind_ok.mpr ⟨(), _, rfl, h2⟩⟩
  rw [← main ops (MultiEq.new cs)]
  unfold MSynth.scoped
  constructor
  · rintro ⟨cs', h⟩
    cases hx : runBatch cap ops (MultiEq.new cs) with
    | error e => simp [hx] at h
    | ok r => obtain ⟨_, s'⟩ := r; exact ⟨s', rfl⟩
  · rintro ⟨s', h⟩
    exact ⟨s'.drop, by simp [h]⟩

/-- C13, concrete case over the field with 101 elements (capacity 6): two 3-bit equalities (forcing
a flush between them) and one constraint; sides fit, the run succeeds. -/
example : Nat.Prime 101 ∧ capacity 101 = 6 ∧
    (∃ cs', MSynth.scoped (runBatch (capacity 101)
      [.eq 3 (LC.ofVar (.aux 0)) (LC.ofVar (.aux 1)), .constraint [] [] [],
       .eq 3 (LC.ofVar (.aux 2)) (LC.ofVar (.aux 3))]) (CS.new true : CS ℚ) = .ok ((), cs')) := by
  refine ⟨by norm_num, by decide, ?_⟩
  rw [C13_batch_succeeds]
  intro n l r h
  have : capacity 101 = 6 := by decide
  simp only [List.mem_cons, BatchOp.eq.injEq, reduceCtorEq, List.not_mem_nil, or_false, false_or] at h
  omega

/-! ### C12 – addmany -/

/-- Soundness of the adder over any prime field.  The adder shares its batcher with arbitrary
earlier and later equalities and constraints.  In every satisfying assignment of the final
constraints in which the other equalities respect their declared widths, if the operands denote
`xs` then the result denotes their sum modulo `2^32`. -/
theorem C12_addmany_sound (p : Nat) [Fact p.Prime] (before after : List (BatchOp (ZMod p)))
    (ops : List UInt32G) (cs cs' : CS (ZMod p)) (r : UInt32G)
    (hrun : MSynth.scoped (do
        runBatch (capacity p) before
        let r ← addmany (capacity p) ops
        runBatch (capacity p) after
        pure r) cs = .ok (r, cs'))
    (w : Index → ZMod p) (hone : w .one = 1) (hsat : cs'.Sat w)
    (hfit : ∀ o ∈ before ++ after, o.Fits w) (xs : List (BitVec 32))
    (hops : List.Forall₂ (fun u x => u.Denotes w x) ops xs) :
    cs.Sat w ∧ r.Denotes w (wordSum xs) := by
  obtain ⟨hW, hS⟩ := forall2_denotes hops
  have hprog : SndM (fun w => (∀ o ∈ before ++ after, o.Fits w) ∧ ∀ u ∈ ops, u.IsW w)
      (do
        runBatch (capacity p) before
        let r ← addmany (capacity p) ops
        runBatch (capacity p) after
        pure r) (fun w r => r.IsW w)
        (fun w r => word w r = BitVec.ofNat 32 (sumNat w ops)) := by
    refine SndM.bind ((runBatch_sndM (capOK_zmod p) before).pre
      fun w _ h o ho => h.1 o (List.mem_append_left _ ho)) fun _ => ?_
    refine SndM.bind ((addmany_sndM (capOK_zmod p) ops).pre fun w _ h => h.1.2) fun r => ?_
    refine SndM.bind ((runBatch_sndM (capOK_zmod p) after).pre
      fun w _ h o ho => h.1.1.1 o (List.mem_append_right _ ho)) fun _ => ?_
    exact SndM.pure fun w _ h => ⟨h.1.2, fun _ h2 _ => h2⟩
  obtain ⟨e, q⟩ := (Snd.scoped hprog) cs r cs' hrun
  obtain ⟨p1, p2⟩ := q w hone hsat ⟨hfit, hW⟩
  exact ⟨e.sat hsat, (denotes_iff _ _ _).mpr ⟨p1, by rw [p2, hS, wordSum_eq]⟩⟩

/-- Honest runs succeed in every field of at least 64 bits, with the right value. -/
theorem C12_addmany_complete (p : Nat) [Fact p.Prime] (hbits : 64 ≤ Nat.size p)
    (ops : List UInt32G) (h2 : 2 ≤ ops.length) (h10 : ops.length ≤ 10) (cs : CS (ZMod p))
    (hgood : cs.Good) (xs : List (BitVec 32))
    (hops : List.Forall₂ (fun u x => u.Known cs x) ops xs) :
    ∃ r cs', MSynth.scoped (addmany (capacity p) ops) cs = .ok (r, cs') ∧ cs.Ext cs' ∧ cs'.Good ∧
      r.Known cs' (wordSum xs) := by
  rw [wordSum_eq]
  exact Cmp.scoped (addmany_cmpM (s := MultiEq.new cs) (by unfold capacity; omega) hops h2 h10)
    (fun _ _ _ e h => h.mono e) hgood

/-- Fields below 64 bits and operand counts outside 2..10 are refused by a panic. -/
theorem C12_addmany_refuses (cap : Nat) (ops : List UInt32G) (m : MultiEq F)
    (h : cap + 1 < 64 ∨ ops.length < 2 ∨ 10 < ops.length) :
    addmany cap ops m = .error .panic := by
  unfold addmany
  rw [if_pos]
  omega

/-- C12, concrete case: three words, one of them constant, in the fresh proving system over any
prime field of at least 64 bits; the hypotheses of `C12_addmany_complete` are met. -/
example (p : Nat) [Fact p.Prime] :
    (CS.new true : CS (ZMod p)).Good ∧
    List.Forall₂ (fun u x => UInt32G.Known (CS.new true : CS (ZMod p)) u x)
      [constant 0xFFFFFFFF#32, constant 1#32, constant 5#32] [0xFFFFFFFF#32, 1#32, 5#32] ∧
    wordSum [0xFFFFFFFF#32, 1#32, 5#32] = 5#32 :=
  ⟨CS.good_new, .cons (constant_known _ _) (.cons (constant_known _ _) (.cons (constant_known _ _) .nil)),
   by decide⟩

end Zkp
