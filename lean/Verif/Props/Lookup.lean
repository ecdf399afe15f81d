/- C21, C22, C24: table lookups and field-element helpers. -/
import Verif.Proof.Fr
import Verif.Proof.BlsPrime
import Mathlib.Algebra.Field.ZMod

set_option linter.unusedSectionVars false
set_option linter.unusedSimpArgs false

namespace Zkp

open Lookup

variable {F : Type} [Field F]

/-! ### C21 – two- and three-bit lookups

The address of bits `x, y, z` (least significant first) is `x + 2 y + 4 z`, written out below. -/

/-- The interpolation coefficients are right for every window size and every table: the sum of the
coefficients of all sub-patterns of `m` is the `m`-th table entry. -/
theorem C21_synth (window : Nat) (c : List F) (hc : c.length = 2 ^ window) :
    ∃ X, synth window c = some X ∧ X.length = 2 ^ window ∧ ∀ m, m < 2 ^ window →
      ∑ i ∈ Finset.range (2 ^ window), (if i &&& m = i then X.getD i 0 else 0) = c.getD m 0 := by
  obtain ⟨h1, h2, h3⟩ := synth_fold (2 ^ window) c (by omega)
  refine ⟨c.zipIdx.foldl synthStep (List.replicate (2 ^ window) 0), ?_, h1, fun m hm => ?_⟩
  · unfold synth
    rw [if_pos (by omega)]
  · have := h3 m (by omega)
    rwa [hc] at this

/-- Soundness: in every satisfying assignment under which the selector bits stand for `x, y` (and
`z`), the output is the addressed table entry. -/
theorem C21_lookup_sound (b0 b1 b2 : Boolean) (t4 t8 : List F) (s4 s8 : List (F × F))
    (h4 : t4.length = 4) (h8 : t8.length = 8) (h4' : s4.length = 4) (h8' : s8.length = 8)
    (cs : CS F) (w : Index → F) (hone : w .one = 1) (x y z : Bool) (hx : b0.Rep w x)
    (hy : b1.Rep w y) (hz : b2.Rep w z) :
    (∀ r cs', lookup2X [b0, b1] t4 cs = .ok (r, cs') → cs'.Sat w →
      cs.Sat w ∧ w r.variable_ = t4.getD (x.toNat + 2 * y.toNat) 0) ∧
    (∀ r cs', lookup2XY [b0, b1] s4 cs = .ok (r, cs') → cs'.Sat w →
      cs.Sat w ∧ (w r.1.variable_, w r.2.variable_) = s4.getD (x.toNat + 2 * y.toNat) 0) ∧
    (∀ r cs', lookup3X [b0, b1, b2] t8 cs = .ok (r, cs') → cs'.Sat w →
      cs.Sat w ∧ w r.variable_ = t8.getD (x.toNat + 2 * y.toNat + 4 * z.toNat) 0) ∧
    (∀ r cs', lookup3XY [b0, b1, b2] s8 cs = .ok (r, cs') → cs'.Sat w →
      cs.Sat w ∧ (w r.1.variable_, w r.2.variable_) =
        s8.getD (x.toNat + 2 * y.toNat + 4 * z.toNat) 0) := by
  have pair : ∀ (s : List (F × F)) (i : Nat),
      s.getD i 0 = ((s.map Prod.fst).getD i 0, (s.map Prod.snd).getD i 0) := by
    intro s i
    by_cases h : i < s.length
    · rw [List.getD_eq_getElem _ _ h, List.getD_eq_getElem _ _ (by simpa using h),
        List.getD_eq_getElem _ _ (by simpa using h)]
      simp
    · rw [List.getD_eq_default _ _ (by omega), List.getD_eq_default _ _ (by simpa using h),
        List.getD_eq_default _ _ (by simpa using h)]
      rfl
  refine ⟨fun r cs' hrun hsat => ?_, fun r cs' hrun hsat => ?_, fun r cs' hrun hsat => ?_,
    fun r cs' hrun hsat => ?_⟩
  · have key : Snd (lookup2X [b0, b1] t4) (fun w r => ∀ x y, b0.Rep w x → b1.Rep w y →
        w r.variable_ = t4.getD (idx2 x y) 0) := by
      unfold lookup2X
      rw [h4]
      exact (AllocatedFr.alloc_snd _).bind fun r => (enforce2_snd b0 b1 t4 _ h4).bind fun _ =>
        Snd.pure fun w _ h _ => h
    obtain ⟨e, q⟩ := key cs r cs' hrun
    exact ⟨e.sat hsat, q w hone hsat x y hx hy⟩
  · have key : Snd (lookup2XY [b0, b1] s4) (fun w r => ∀ x y, b0.Rep w x → b1.Rep w y →
        w r.1.variable_ = (s4.map Prod.fst).getD (idx2 x y) 0 ∧
        w r.2.variable_ = (s4.map Prod.snd).getD (idx2 x y) 0) := by
      unfold lookup2XY
      rw [h4']
      exact (AllocatedFr.alloc_snd _).bind fun r => (AllocatedFr.alloc_snd _).bind fun r' =>
        (enforce2_snd b0 b1 (s4.map Prod.fst) _ (by simpa using h4')).bind fun _ =>
        (enforce2_snd b0 b1 (s4.map Prod.snd) _ (by simpa using h4')).bind fun _ =>
        Snd.pure fun w _ h h' _ _ x y hx hy => ⟨h' x y hx hy, h x y hx hy⟩
    obtain ⟨e, q⟩ := key cs r cs' hrun
    obtain ⟨q1, q2⟩ := q w hone hsat x y hx hy
    exact ⟨e.sat hsat, by rw [pair, q1, q2]; rfl⟩
  · have key : Snd (lookup3X [b0, b1, b2] t8) (fun w r => ∀ x y z, b0.Rep w x → b1.Rep w y →
        b2.Rep w z → w r.variable_ = t8.getD (idx3 x y z) 0) := by
      unfold lookup3X
      rw [h8]
      obtain ⟨X, hX, hX'⟩ := synth3 t8 h8
      simp only [hX]
      exact (AllocatedFr.alloc_snd _).bind fun r => (Boolean.and_snd b1 b2).bind fun pc =>
        (enforce3_snd b0 b1 b2 pc t8 X hX' _).bind fun _ =>
        Snd.pure fun w _ h hp _ x y z hx hy hz => h x y z hx hy hz (hp y z hy hz)
    obtain ⟨e, q⟩ := key cs r cs' hrun
    exact ⟨e.sat hsat, q w hone hsat x y z hx hy hz⟩
  · have key : Snd (lookup3XY [b0, b1, b2] s8) (fun w r => ∀ x y z, b0.Rep w x → b1.Rep w y →
        b2.Rep w z → w r.1.variable_ = (s8.map Prod.fst).getD (idx3 x y z) 0 ∧
        w r.2.variable_ = (s8.map Prod.snd).getD (idx3 x y z) 0) := by
      unfold lookup3XY
      rw [h8']
      obtain ⟨X, hX, hX'⟩ := synth3 (s8.map Prod.fst) (by simpa using h8')
      obtain ⟨Y, hY, hY'⟩ := synth3 (s8.map Prod.snd) (by simpa using h8')
      simp only [hX, hY]
      exact (AllocatedFr.alloc_snd _).bind fun r => (AllocatedFr.alloc_snd _).bind fun r' =>
        (Boolean.and_snd b1 b2).bind fun pc =>
        (enforce3_snd b0 b1 b2 pc _ X hX' _).bind fun _ =>
        (enforce3_snd b0 b1 b2 pc _ Y hY' _).bind fun _ =>
        Snd.pure fun w _ h h' hp _ _ x y z hx hy hz => ⟨h' x y z hx hy hz (hp y z hy hz),
          h x y z hx hy hz (hp y z hy hz)⟩
    obtain ⟨e, q⟩ := key cs r cs' hrun
    obtain ⟨q1, q2⟩ := q w hone hsat x y z hx hy hz
    exact ⟨e.sat hsat, by rw [pair, q1, q2]; rfl⟩

/-- Completeness: with known selector bits an honest run succeeds, satisfies all constraints, and
carries the addressed entry as its value. -/
theorem C21_lookup_complete (b0 b1 b2 : Boolean) (t4 t8 : List F) (s4 s8 : List (F × F))
    (h4 : t4.length = 4) (h8 : t8.length = 8) (h4' : s4.length = 4) (h8' : s8.length = 8)
    (cs : CS F) (hgood : cs.Good) (x y z : Bool) (hx : b0.Known cs x)
    (hy : b1.Known cs y) (hz : b2.Known cs z) :
    (∃ r cs', lookup2X [b0, b1] t4 cs = .ok (r, cs') ∧ cs.Ext cs' ∧ cs'.Good ∧
      r.Known cs' (t4.getD (x.toNat + 2 * y.toNat) 0)) ∧
    (∃ r cs', lookup2XY [b0, b1] s4 cs = .ok (r, cs') ∧ cs.Ext cs' ∧ cs'.Good ∧
      r.1.Known cs' ((s4.map Prod.fst).getD (x.toNat + 2 * y.toNat) 0) ∧
      r.2.Known cs' ((s4.map Prod.snd).getD (x.toNat + 2 * y.toNat) 0)) ∧
    (∃ r cs', lookup3X [b0, b1, b2] t8 cs = .ok (r, cs') ∧ cs.Ext cs' ∧ cs'.Good ∧
      r.Known cs' (t8.getD (x.toNat + 2 * y.toNat + 4 * z.toNat) 0)) ∧
    (∃ r cs', lookup3XY [b0, b1, b2] s8 cs = .ok (r, cs') ∧ cs.Ext cs' ∧ cs'.Good ∧
      r.1.Known cs' ((s8.map Prod.fst).getD (x.toNat + 2 * y.toNat + 4 * z.toNat) 0) ∧
      r.2.Known cs' ((s8.map Prod.snd).getD (x.toNat + 2 * y.toNat + 4 * z.toNat) 0)) := by
  have i2 := index2_known hx hy
  have i3 := index3_known hx hy hz
  refine ⟨?_, ?_, ?_, ?_⟩
  · have key : Cmp cs (lookup2X [b0, b1] t4) (fun r cs' => r.Known cs' (t4.getD (idx2 x y) 0)) := by
      unfold lookup2X
      rw [h4]
      simp only [i2]
      exact (AllocatedFr.alloc_cmp rfl).bind fun r cs1 e1 h1 =>
        (enforce2_cmp h4 (hx.mono e1) (hy.mono e1) h1.2).bind fun _ cs2 e2 _ =>
        Cmp.pure (h1.mono e2)
    exact key hgood
  · have key : Cmp cs (lookup2XY [b0, b1] s4) (fun r cs' =>
        r.1.Known cs' ((s4.map Prod.fst).getD (idx2 x y) 0) ∧
        r.2.Known cs' ((s4.map Prod.snd).getD (idx2 x y) 0)) := by
      unfold lookup2XY
      rw [h4']
      simp only [i2]
      exact (AllocatedFr.alloc_cmp rfl).bind fun r cs1 e1 h1 =>
        (AllocatedFr.alloc_cmp rfl).bind fun r' cs2 e2 h2 =>
        (enforce2_cmp (by simpa using h4') ((hx.mono e1).mono e2) ((hy.mono e1).mono e2)
          (h1.2.mono e2)).bind fun _ cs3 e3 _ =>
        (enforce2_cmp (by simpa using h4') (((hx.mono e1).mono e2).mono e3)
          (((hy.mono e1).mono e2).mono e3) (h2.2.mono e3)).bind fun _ cs4 e4 _ =>
        Cmp.pure ⟨((h1.mono e2).mono e3).mono e4, (h2.mono e3).mono e4⟩
    exact key hgood
  · have key : Cmp cs (lookup3X [b0, b1, b2] t8)
        (fun r cs' => r.Known cs' (t8.getD (idx3 x y z) 0)) := by
      unfold lookup3X
      rw [h8]
      simp only [i3]
      obtain ⟨X, hX, hX'⟩ := synth3 t8 h8
      simp only [hX]
      exact (AllocatedFr.alloc_cmp rfl).bind fun r cs1 e1 h1 =>
        (Boolean.and_cmp (hy.mono e1) (hz.mono e1)).bind fun pc cs2 e2 h2 =>
        (enforce3_cmp hX' ((hx.mono e1).mono e2) ((hy.mono e1).mono e2) ((hz.mono e1).mono e2) h2
          (h1.2.mono e2)).bind fun _ cs3 e3 _ => Cmp.pure ((h1.mono e2).mono e3)
    exact key hgood
  · have key : Cmp cs (lookup3XY [b0, b1, b2] s8) (fun r cs' =>
        r.1.Known cs' ((s8.map Prod.fst).getD (idx3 x y z) 0) ∧
        r.2.Known cs' ((s8.map Prod.snd).getD (idx3 x y z) 0)) := by
      unfold lookup3XY
      rw [h8']
      simp only [i3]
      obtain ⟨X, hX, hX'⟩ := synth3 (s8.map Prod.fst) (by simpa using h8')
      obtain ⟨Y, hY, hY'⟩ := synth3 (s8.map Prod.snd) (by simpa using h8')
      simp only [hX, hY]
      exact (AllocatedFr.alloc_cmp rfl).bind fun r cs1 e1 h1 =>
        (AllocatedFr.alloc_cmp rfl).bind fun r' cs2 e2 h2 =>
        (Boolean.and_cmp ((hy.mono e1).mono e2) ((hz.mono e1).mono e2)).bind fun pc cs3 e3 h3 =>
        (enforce3_cmp hX' (((hx.mono e1).mono e2).mono e3) (((hy.mono e1).mono e2).mono e3)
          (((hz.mono e1).mono e2).mono e3) h3 ((h1.2.mono e2).mono e3)).bind fun _ cs4 e4 _ =>
        (enforce3_cmp hY' ((((hx.mono e1).mono e2).mono e3).mono e4)
          ((((hy.mono e1).mono e2).mono e3).mono e4)
          ((((hz.mono e1).mono e2).mono e3).mono e4) (h3.mono e4)
          ((h2.2.mono e3).mono e4)).bind fun _ cs5 e5 _ =>
        Cmp.pure ⟨(((h1.mono e2).mono e3).mono e4).mono e5, ((h2.mono e3).mono e4).mono e5⟩
    exact key hgood

/-- Wrong table or selector sizes are refused by a panic. -/
theorem C21_wrong_sizes (b : List Boolean) (t : List F) (cs : CS F) :
    (¬ (b.length = 2 ∧ t.length = 4) → lookup2X b t cs = .error .panic) ∧
    (¬ (b.length = 3 ∧ t.length = 8) → lookup3X b t cs = .error .panic) := by
  constructor <;> intro h
  · unfold lookup2X
    match b with
    | [b0, b1] =>
      generalize hn : t.length = n at *
      match n with
      | 0 | 1 | 2 | 3 => rfl
      | 4 => simp at h
      | n + 5 => rfl
    | [] | [_] | _ :: _ :: _ :: _ => rfl
  · unfold lookup3X
    match b with
    | [b0, b1, b2] =>
      generalize hn : t.length = n at *
      match n with
      | 0 | 1 | 2 | 3 | 4 | 5 | 6 | 7 => rfl
      | 8 => simp at h
      | n + 9 => rfl
    | [] | [_] | [_, _] | _ :: _ :: _ :: _ :: _ => rfl

/-- C21, concrete case: selector bits `1, 0, 1` (one allocated, one negated, one constant), tables
of squares; the completeness hypotheses hold. -/
example : ∃ (b0 b1 b2 : Boolean) (cs : CS (ZMod blsR)), cs.Good ∧ b0.Known cs true ∧
    b1.Known cs false ∧ b2.Known cs true ∧
    ([0, 1, 4, 9, 16, 25, 36, 49] : List (ZMod blsR)).length = 8 := by
  obtain ⟨a, cs1, _, _, g1, h1⟩ := AllocatedBit.alloc_cmp (cs := CS.new true) true
    (CS.good_new (F := ZMod blsR))
  exact ⟨.is a, .not_ a, .constant true, cs1, g1, h1, Boolean.known_not_bit.mpr h1,
    Boolean.known_constant true, rfl⟩

/-! ### C22 – one-bit lookup -/

/-- The property as stated, for one field. -/
def C22_statement (F : Type) [Field F] : Prop :=
  ∀ (b : Boolean) (c0 c1 : F) (cs : CS F) (r : AllocatedFr F) (cs' : CS F),
    lookup1X b [c0, c1] cs = .ok (r, cs') → ∀ w : Index → F, w .one = 1 → cs'.Sat w →
    ∀ x, b.Rep w x → w r.variable_ = if x then c1 else c0

/-- Violation in every field: with the constant selector `true` and the table `[0, 0]`, the all-ones
assignment satisfies all constraints, although the output is `1`.  (The table entries are
unconstrained witnesses.) -/
theorem C22_violated (F : Type) [Field F] : ¬ C22_statement F := by
  intro h
  have := h (.constant true) 0 0 (CS.new true)
    ⟨some 0, .aux 0⟩ { (CS.new true : CS F) with aux := [0] } (by
      simp [lookup1X, AllocatedFr.alloc, alloc, isProving, bind, StateT.bind, Except.bind, pure,
        StateT.pure, Except.pure, CS.new, Except.toOption])
    (fun _ => 1) rfl (by intro k hk; simp [CS.new] at hk) true (Boolean.rep_constant.mpr rfl)
  simp at this

/-- The same for an allocated selector bit, with an honest run's constraints: the table `[5, 7]` is
looked up at bit `1`, and every value `v` whatever is accepted as the result. -/
theorem C22_violated_allocated (v : F) : ∃ (a : AllocatedBit) (cs cs' : CS F) (r : AllocatedFr F),
    cs.Good ∧ (Boolean.is a).Known cs true ∧ lookup1X (.is a) [5, 7] cs = .ok (r, cs') ∧
    ∃ w : Index → F, w .one = 1 ∧ cs'.Sat w ∧ cs.Agrees w ∧ w r.variable_ = v := by
  have hrun : AllocatedBit.alloc (some true) (CS.new true : CS F) = .ok (⟨.aux 0, some true⟩,
      { (CS.new true : CS F) with aux := [1], constraints := [⟨(LC.zero.addVar .one).subVar (.aux 0),
          LC.zero.addVar (.aux 0), LC.zero⟩] }) := by
    simp [AllocatedBit.alloc, alloc, bitClosure, okOr, bind, StateT.bind, Except.bind, pure,
      StateT.pure, Except.pure, CS.new, enforce]
  obtain ⟨a, cs1, h1, _, g1, k1⟩ := AllocatedBit.alloc_cmp (cs := CS.new true) true
    (CS.good_new (F := F))
  rw [hrun, Except.ok.injEq, Prod.mk.injEq] at h1
  obtain ⟨rfl, rfl⟩ := h1
  refine ⟨_, _, { (CS.new true : CS F) with
      aux := [1, 7, 5, 7]
      constraints := [⟨(LC.zero.addVar .one).subVar (.aux 0), LC.zero.addVar (.aux 0), LC.zero⟩,
        ⟨(Boolean.is ⟨.aux 0, some true⟩).lc 1, (LC.zero.addVar (.aux 1)).subVar (.aux 2),
          (LC.zero.addVar (.aux 3)).subVar (.aux 2)⟩] }, ⟨some 7, .aux 3⟩, g1, k1, ?_,
    fun i => match i with
    | .aux 0 => 1
    | .aux 1 => v
    | .aux 3 => v
    | .input 0 => 1
    | _ => 0, rfl, ?_, ?_, ?_⟩
  · simp [lookup1X, AllocatedFr.alloc, alloc, isProving, bind, StateT.bind, Except.bind, pure,
      StateT.pure, Except.pure, CS.new, Except.toOption, enforce, Boolean.getValue, okOr]
  · intro k hk
    simp only [List.mem_cons, List.not_mem_nil, or_false] at hk
    rcases hk with rfl | rfl
    · simp [R1C.Holds, Index.one]
    · simp [R1C.Holds, Index.one, Boolean.lc]
  · constructor
    · intro i u h
      simp only [CS.new] at h
      match i with
      | 0 => simpa using h
      | i + 1 => simp at h
    · intro i u h
      match i with
      | 0 => simpa using h
      | i + 1 => simp at h
  · rfl

/-- What holds (`_partial`; missing: the two table variables are not tied to the table): the output
is the value of the table variable addressed by the bit, and an honest run carries the right
entry. -/
theorem C22_select_partial (a : AllocatedBit) (c0 c1 : F) (cs : CS F) :
    (∀ r cs', lookup1X (.is a) [c0, c1] cs = .ok (r, cs') → ∀ w : Index → F, w .one = 1 →
      cs'.Sat w → ∀ x, (Boolean.is a).Rep w x →
      w r.variable_ = if x then w (.aux cs.aux.length) else w (.aux (cs.aux.length + 1))) ∧
    (cs.Good → ∀ x, (Boolean.is a).Known cs x → ∃ r cs', lookup1X (.is a) [c0, c1] cs = .ok (r, cs') ∧
      cs'.Good ∧ r.Known cs' (if x then c1 else c0)) := by
  constructor
  · intro r cs' hrun w ho hs x hx
    simp only [lookup1X] at hrun
    obtain ⟨t, cs1, h1, hrun⟩ := Synth.bind_ok.mp hrun
    obtain ⟨f, cs2, h2, hrun⟩ := Synth.bind_ok.mp hrun
    obtain ⟨q, cs3, h3, hrun⟩ := Synth.bind_ok.mp hrun
    obtain ⟨u, cs4, h4, hrun⟩ := Synth.bind_ok.mp hrun
    obtain ⟨rfl, rfl⟩ := Synth.pure_ok.mp hrun
    have hv : ∀ (cs cs' : CS F) (f : F) (r : AllocatedFr F),
        AllocatedFr.alloc (.ok f) cs = .ok (r, cs') → r.variable_ = .aux cs.aux.length ∧
          cs'.aux.length = cs.aux.length + 1 := by
      intro cs cs' f r h
      simp only [AllocatedFr.alloc, bind, StateT.bind, Except.bind, isProving, alloc, pure,
        StateT.pure, Except.pure] at h
      cases hp : cs.proving <;> simp [hp] at h <;> obtain ⟨rfl, rfl⟩ := h <;> simp
    obtain ⟨t1, t2⟩ := hv _ _ _ _ h1
    obtain ⟨f1, f2⟩ := hv _ _ _ _ h2
    have he := ((Snd.enforce _ _ _) _ _ _ h4).2 w ho hs
    unfold Boolean.Rep at hx
    simp only [Boolean.eval_lc w ho, hx, LC.eval_subVar, LC.eval_addVar, LC.eval_zero, t1, f1, t2]
      at he
    cases x
    · simp at he ⊢; linear_combination -he
    · simp at he ⊢; linear_combination -he
  · intro hg x hx
    have key : Cmp cs (lookup1X (.is a) [c0, c1]) (fun r cs' => r.Known cs' (if x then c1 else c0)) := by
      simp only [lookup1X]
      refine (AllocatedFr.alloc_cmp rfl).bind fun t cs1 e1 h1 =>
        (AllocatedFr.alloc_cmp rfl).bind fun f cs2 e2 h2 =>
        (AllocatedFr.alloc_cmp (x := if x then c1 else c0) ?_).bind fun r cs3 e3 h3 =>
        (Cmp.enforce ?_).bind fun _ cs4 e4 _ => Cmp.pure (h3.mono e4)
      · rw [hx.1]
        cases x
        · simp [h2.1, okOr]
        · simp [h1.1, okOr]
      · intro w ho hw
        have q0 := (((hx.mono e1).mono e2).mono e3).2 w hw
        unfold Boolean.Rep at q0
        simp only [Boolean.eval_lc w ho, q0, LC.eval_subVar, LC.eval_addVar, LC.eval_zero,
          ((h1.2.mono e2).mono e3) w hw, (h2.2.mono e3) w hw, h3.2 w hw]
        cases x <;> simp
    obtain ⟨r, cs', a1, _, a3, a4⟩ := key hg
    exact ⟨r, cs', a1, a3, a4⟩

/-! ### C24 – non-zero assertion and public inputs -/

/-- Every satisfying assignment gives an asserted element a non-zero value; conversely an honest run
on a non-zero value succeeds; on zero it reports division by zero; without a value, a missing
assignment. -/
theorem C24_isnonzero [DecidableEq F] (a : AllocatedFr F) (cs : CS F) :
    (∀ cs', a.isnonzero cs = .ok ((), cs') → ∀ w : Index → F, w .one = 1 → cs'.Sat w →
      cs.Sat w ∧ w a.variable_ ≠ 0) ∧
    (cs.Good → ∀ x, a.Known cs x → x ≠ 0 → ∃ cs', a.isnonzero cs = .ok ((), cs') ∧ cs'.Good) ∧
    (cs.proving = true → a.value = some 0 → a.isnonzero cs = .error .divisionByZero) ∧
    (cs.proving = true → a.value = none → a.isnonzero cs = .error .assignmentMissing) := by
  refine ⟨fun cs' hrun w ho hs => ?_, fun hg x hx h0 => ?_, fun hp hv => ?_, fun hp hv => ?_⟩
  · have key : Snd (a.isnonzero) (fun w _ => w a.variable_ ≠ 0) := by
      unfold AllocatedFr.isnonzero
      refine (Snd.alloc _).bind fun inv => (Snd.enforce _ _ _).weaken fun w ho _ he _ h0 => ?_
      simp [ho, h0] at he
    obtain ⟨e, q⟩ := key cs () cs' hrun
    exact ⟨e.sat hs, q w ho hs⟩
  · have key : Cmp cs a.isnonzero (fun _ _ => True) := by
      unfold AllocatedFr.isnonzero
      rw [hx.1]
      refine (Cmp.alloc' (v := x⁻¹) (by simp [h0])).bind fun inv cs1 e1 h1 =>
        (Cmp.enforce fun w ho hw => ?_).weaken fun _ _ _ _ => trivial
      simp [ho, h1 w hw, (hx.2.mono e1) w hw, h0]
    obtain ⟨_, cs', h1, _, h3, _⟩ := key hg
    exact ⟨cs', h1, h3⟩
  · have h := alloc_missing hp .divisionByZero
    simp only [AllocatedFr.isnonzero, hv, if_true, bind, StateT.bind, h, Except.bind]
  · have h := alloc_missing hp .assignmentMissing
    simp only [AllocatedFr.isnonzero, hv, bind, StateT.bind, h, Except.bind]

/-- Exposing an element: the new public input – the next one in order – equals the element in every
satisfying assignment, and an honest run succeeds with that value. -/
theorem C24_inputize (a : AllocatedFr F) (cs : CS F) :
    (∀ cs', a.inputize cs = .ok ((), cs') → ∀ w : Index → F, w .one = 1 → cs'.Sat w →
      cs.Sat w ∧ cs'.inputs.length = cs.inputs.length + 1 ∧
      w (.input cs.inputs.length) = w a.variable_) ∧
    (cs.Good → ∀ x, a.Known cs x → ∃ cs', a.inputize cs = .ok ((), cs') ∧ cs'.Good ∧
      VarIs cs' (.input cs.inputs.length) x) ∧
    (cs.proving = true → a.value = none → a.inputize cs = .error .assignmentMissing) := by
  refine ⟨fun cs' hrun w ho hs => ?_, fun hg x hx => ?_, fun hp hv => ?_⟩
  · obtain ⟨v, cs1, h1, h2⟩ := Synth.bind_ok.mp hrun
    have hv : v = .input cs.inputs.length ∧ cs1.inputs.length = cs.inputs.length + 1 := by
      unfold allocInput at h1
      split at h1
      · split at h1
        · simp at h1
        · simp only [Except.ok.injEq, Prod.mk.injEq] at h1
          exact ⟨h1.1.symm, by rw [← h1.2]; simp⟩
      · simp only [Except.ok.injEq, Prod.mk.injEq] at h1
        exact ⟨h1.1.symm, by rw [← h1.2]; simp⟩
    have e1 := (Snd.allocInput _ _ _ _ h1).1
    obtain ⟨e2, q⟩ := (Snd.enforce _ _ _) _ _ _ h2
    have he := q w ho hs
    simp [ho, hv.1] at he
    refine ⟨(e1.trans e2).sat hs, ?_, he⟩
    simp only [enforce, Except.ok.injEq, Prod.mk.injEq, true_and] at h2
    rw [← h2]; exact hv.2
  · obtain ⟨v, cs1, h1, e1, g1, k1⟩ := Cmp.allocInput' (cs := cs) (f := okOr a.value) (v := x)
      (by rw [hx.1]; rfl) hg
    have hv : v = .input cs.inputs.length := by
      simp [allocInput, hg.proving, hx.1, okOr] at h1
      exact h1.1.symm
    obtain ⟨_, cs2, h2, e2, g2, _⟩ := Cmp.enforce (cs := cs1) (a := LC.zero.addVar v)
      (b := LC.zero.addVar .one) (c := LC.zero.addVar a.variable_) (fun w ho hw => by
        simp [ho, k1 w hw, (hx.2.mono e1) w hw]) g1
    refine ⟨cs2, ?_, g2, hv ▸ k1.mono e2⟩
    simp only [AllocatedFr.inputize, bind, StateT.bind, h1, Except.bind, h2]
  · have h : allocInput (.error .assignmentMissing) cs = .error .assignmentMissing := by
      simp [allocInput, hp]
    simp only [AllocatedFr.inputize, hv, okOr, bind, StateT.bind, h, Except.bind]

/-- C24, concrete case: an allocated non-zero element in a good state. -/
example : ∃ (a : AllocatedFr (ZMod blsR)) (cs : CS (ZMod blsR)), cs.Good ∧ a.Known cs 12 := by
  obtain ⟨a, cs1, _, _, g1, h1⟩ := AllocatedFr.alloc_cmp (cs := CS.new true) (f := .ok 12) rfl
    (CS.good_new (F := ZMod blsR))
  exact ⟨a, cs1, g1, h1⟩

end Zkp
