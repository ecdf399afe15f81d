/- C19, C20, C70, C71: the hash interface, Rescue and Poseidon. -/
import Verif.Proof.Rescue
import Verif.Proof.BlsPrime
import Verif.Proof.Sha256
import Verif.Spec.Poseidon
import Mathlib.Tactic.NormNum.Prime

set_option linter.unusedSectionVars false
set_option linter.unusedSimpArgs false

namespace Zkp

variable {F : Type} [Field F]

/-! ### C20 – the power circuit -/

/-- The property as stated, for one field: for every base and exponent, an honest run assigns
`base ^ exponent` to the result, and every satisfying assignment does. -/
def C20_statement (F : Type) [Field F] : Prop :=
  ∀ (x : F) (v : Index) (exp : List Nat) (cs : CS F), (∀ l ∈ exp, l < 2 ^ 64) → cs.Good →
    VarIs cs v x → ∀ r cs', Pow.powWithConstraint x v exp cs = .ok (r, cs') →
    (r.1 = x ^ limbsVal exp ∧ VarIs cs' r.2 (x ^ limbsVal exp)) ∧
    ∀ w : Index → F, w .one = 1 → cs'.Sat w → w r.2 = w v ^ limbsVal exp

/-- Violation, for every field, base and exponent: the honest run assigns zero. -/
theorem C20_violated_assigns_zero (x : F) (v : Index) (exp : List Nat) (cs : CS F)
    (hgood : cs.Good) : ∃ r cs', Pow.powWithConstraint x v exp cs = .ok (r, cs') ∧ cs'.Good ∧
      r.1 = 0 ∧ VarIs cs' r.2 0 := by
  obtain ⟨r, cs', h1, _, h3, h4⟩ := Pow.pow_cmp (cs := cs) x v exp hgood
  exact ⟨r, cs', h1, h3, h4⟩

/-- Hence the property fails in every field: base `1`, exponent `5` gives `0`, and that false result
is accepted by the constraints. -/
theorem C20_violated (F : Type) [Field F] : ¬ C20_statement F := by
  intro h
  have hone : VarIs (CS.new true : CS F) .one 1 := fun w hw => CS.good_new.one_eq hw
  obtain ⟨r, cs', h1, h2, h3, h4⟩ :=
    C20_violated_assigns_zero (1 : F) .one [5] (CS.new true) CS.good_new
  have := (h 1 .one [5] _ (by simp) CS.good_new hone r cs' h1).1.1
  rw [h3] at this
  simp at this

/-- What holds (`_partial`; missing: the accumulator is not constrained, and honestly zero): every
satisfying assignment gives the result `acc^(2^m) * base^exponent`, where `acc` is the value of the
accumulator variable, for some `m`.  So the circuit is right exactly if the accumulator is one. -/
theorem C20_power_partial (x : F) (v : Index) (exp : List Nat) (hexp : ∀ l ∈ exp, l < 2 ^ 64)
    (cs cs' : CS F) (r : F × Index) (hrun : Pow.powWithConstraint x v exp cs = .ok (r, cs'))
    (w : Index → F) (hone : w .one = 1) (hsat : cs'.Sat w) :
    cs.Sat w ∧
    (∃ m, w r.2 = w (.aux cs.aux.length) ^ 2 ^ m * w v ^ limbsVal exp) ∧
    (w (.aux cs.aux.length) = 1 → w r.2 = w v ^ limbsVal exp) := by
  obtain ⟨e, q⟩ := Pow.pow_snd x v exp cs r cs' hrun
  obtain ⟨m, hm, _⟩ := q w hone hsat
  rw [bitsVal_bitIterator exp hexp] at hm
  exact ⟨e.sat hsat, ⟨m, hm⟩, fun h => by rw [hm, h]; simp⟩

/-- C20, concrete case: `Rescue`'s inverse exponent has limbs below `2^64`, and the run exists. -/
example : (∀ l ∈ Rescue.INVALPH, l < 2 ^ 64) ∧
    ∃ r cs', Pow.powWithConstraint (3 : ZMod blsR) .one Rescue.INVALPH (CS.new true) = .ok (r, cs') ∧
      cs'.Sat cs'.witness ∧ cs'.witness .one = 1 := by
  refine ⟨by decide, ?_⟩
  obtain ⟨r, cs', h1, h2, _⟩ := C20_violated_assigns_zero (3 : ZMod blsR) .one Rescue.INVALPH
    (CS.new true) CS.good_new
  exact ⟨r, cs', h1, h2.sat, h2.witness_one⟩

/-! ### C70 – the public outputs of the Rescue and Poseidon circuits -/

/-- Tables of the sizes found in the source. -/
structure Shape (n : Nat) (rc mds : List (List F)) : Prop where
  rows : ∀ i < n, (rc.getD i []).length = 3
  mds : mds.length = 3

/-- The property as stated, for Rescue: an honest run succeeds and its public output carries the
hash of the block. -/
def C70_rescue_statement (rc mds : List (List F)) : Prop :=
  ∀ (xl xr : F) (cs : CS F), cs.Good → ∃ out cs', Rescue.circuit rc mds xl xr cs = .ok (out, cs') ∧
    cs'.Good ∧ VarIs cs' out (Rescue.block rc mds xl xr)

/-- The property as stated, for Poseidon. -/
def C70_poseidon_statement (ark mds : List (List F)) : Prop :=
  ∀ (xl xr : F) (cs : CS F), cs.Good → ∃ out cs', Poseidon.circuit ark mds xl xr cs = .ok (out, cs') ∧
    cs'.Good ∧ VarIs cs' out (Poseidon.block ark mds xl xr)

/-- Violation, Rescue: for all tables and all inputs the honest public output is the first element
of the last row of round constants – independent of what is hashed. -/
theorem C70_rescue_constant_output (rc mds : List (List F)) (h : Shape 45 rc mds) (xl xr : F)
    (cs : CS F) (hgood : cs.Good) :
    ∃ out cs', Rescue.circuit rc mds xl xr cs = .ok (out, cs') ∧ cs'.Good ∧
      VarIs cs' out ((rc.getD 44 []).getD 0 0) := by
  obtain ⟨r, cs', h1, _, h3, h4⟩ := Rescue.circuit_cmp (cs := cs) rc mds h.mds
    (fun i hi => h.rows i (by omega)) xl xr hgood
  exact ⟨r, cs', h1, h3, h4⟩

/-- Violation, Poseidon: for all tables and all inputs the honest public output is zero. -/
theorem C70_poseidon_zero_output (ark mds : List (List F)) (h : Shape 91 ark mds) (xl xr : F)
    (cs : CS F) (hgood : cs.Good) :
    ∃ out cs', Poseidon.circuit ark mds xl xr cs = .ok (out, cs') ∧ cs'.Good ∧ VarIs cs' out 0 := by
  obtain ⟨r, cs', h1, _, h3, h4⟩ := Poseidon.circuit_cmp (cs := cs) ark mds h.mds h.rows xl xr hgood
  exact ⟨r, cs', h1, h3, h4⟩

theorem VarIs.unique {cs : CS F} {v : Index} {x y : F} (h : VarIs cs v x) (h' : VarIs cs v y) :
    x = y := (h _ cs.witness_agrees).symm.trans (h' _ cs.witness_agrees)

/-- So the property could only hold for tables whose native hash is a constant function. -/
theorem C70_only_constant_hashes (rc ark mds : List (List F)) (hr : Shape 45 rc mds)
    (hp : Shape 91 ark mds) :
    (C70_rescue_statement rc mds → ∀ xl xr, Rescue.block rc mds xl xr = (rc.getD 44 []).getD 0 0) ∧
    (C70_poseidon_statement ark mds → ∀ xl xr, Poseidon.block ark mds xl xr = 0) := by
  constructor <;> intro h xl xr
  · obtain ⟨o, c, h1, _, h3⟩ := h xl xr (CS.new true) CS.good_new
    obtain ⟨o', c', h1', _, h3'⟩ := C70_rescue_constant_output rc mds hr xl xr (CS.new true) CS.good_new
    rw [h1, Except.ok.injEq, Prod.mk.injEq] at h1'
    obtain ⟨rfl, rfl⟩ := h1'
    exact h3.unique h3'
  · obtain ⟨o, c, h1, _, h3⟩ := h xl xr (CS.new true) CS.good_new
    obtain ⟨o', c', h1', _, h3'⟩ := C70_poseidon_zero_output ark mds hp xl xr (CS.new true) CS.good_new
    rw [h1, Except.ok.injEq, Prod.mk.injEq] at h1'
    obtain ⟨rfl, rfl⟩ := h1'
    exact h3.unique h3'

/-- A concrete pair of tables used in the witnesses below. -/
def zeroRows (n : Nat) : List (List F) := List.replicate n [0, 0, 0]
def idMds : List (List F) := [[1, 0, 0], [0, 1, 0], [0, 0, 1]]

theorem shape_zeroRows (n : Nat) : Shape n (zeroRows n : List (List F)) idMds :=
  ⟨fun i hi => by
    rw [List.getD_eq_getElem _ _ (by simpa [zeroRows] using hi)]
    simp [zeroRows], rfl⟩

theorem zeroRows_getD (n i j : Nat) : ((zeroRows n : List (List F)).getD i []).getD j 0 = 0 := by
  by_cases hi : i < n
  · have : (zeroRows n : List (List F)).getD i [] = [0, 0, 0] := by
      rw [List.getD_eq_getElem _ _ (by simpa [zeroRows] using hi)]
      simp [zeroRows]
    rw [this]
    match j with
    | 0 => rfl
    | 1 => rfl
    | 2 => rfl
    | _ + 3 => rfl
  · have : (zeroRows n : List (List F)).getD i [] = [] :=
      List.getD_eq_default _ _ (by simpa [zeroRows] using hi)
    rw [this]; rfl

theorem rescue_block_one : Rescue.block (zeroRows 45 : List (List F)) idMds 1 0 = 1 := by
  have hz := zeroRows_getD (F := F) 45
  have he : ∀ i, limbsVal (Rescue.exponent i) ≠ 0 := by
    intro i
    unfold Rescue.exponent
    split
    · decide +kernel
    · decide
  have hstep : ∀ i, Rescue.halfRound (zeroRows 45 : List (List F)) idMds [1, 0, 0] i = [1, 0, 0] := by
    intro i
    unfold Rescue.halfRound
    simp only [hz, List.map_cons, List.map_nil, one_pow, zero_pow (he i), add_zero]
    simp [idMds, List.range_succ]
  have hfold : ∀ l : List Nat, l.foldl (Rescue.halfRound (zeroRows 45 : List (List F)) idMds)
      [1, 0, 0] = [1, 0, 0] := by
    intro l
    induction l with
    | nil => rfl
    | cons i l ih => rw [List.foldl_cons, hstep, ih]
  unfold Rescue.block
  simp only [hz, add_zero]
  have : (List.range 3).map (fun i => ([1, 0, 0] : List F).getD i 0) = [1, 0, 0] := by
    simp [List.range_succ]
  rw [this, hfold]; rfl

theorem poseidon_block_one : Poseidon.block (zeroRows 91 : List (List F)) idMds 1 0 = 1 := by
  have hz := zeroRows_getD (F := F) 91
  have he : limbsVal Poseidon.ALPH = 5 := by decide
  have hstep : ∀ i, Poseidon.round (zeroRows 91 : List (List F)) idMds [1, 0, 0] i = [1, 0, 0] := by
    intro i
    unfold Poseidon.round
    simp only [hz, he, add_zero]
    have : (List.range 3).map (fun i => ([1, 0, 0] : List F).getD i 0) = [1, 0, 0] := by
      simp [List.range_succ]
    rw [this]
    have e2 : (if Poseidon.isFull i = true then ([1, 0, 0] : List F).map (fun x => x ^ 5)
        else ([1, 0, 0] : List F).set 2 (([1, 0, 0] : List F).getD 2 0 ^ 5)) = [1, 0, 0] := by
      split <;> simp
    rw [e2]
    simp [idMds, List.range_succ]
  have hfold : ∀ l : List Nat, l.foldl (Poseidon.round (zeroRows 91 : List (List F)) idMds)
      [1, 0, 0] = [1, 0, 0] := by
    intro l
    induction l with
    | nil => rfl
    | cons i l ih => rw [List.foldl_cons, hstep, ih]
  unfold Poseidon.block
  rw [hfold]; rfl

/-- The property fails in every field, already for the simplest tables: the native hash of the block
`(1, 0)` is `1`, the public output is `0`. -/
theorem C70_violated (F : Type) [Field F] :
    ¬ C70_rescue_statement (zeroRows 45 : List (List F)) idMds ∧
    ¬ C70_poseidon_statement (zeroRows 91 : List (List F)) idMds := by
  constructor <;> intro h
  · have := (C70_only_constant_hashes _ _ _ (shape_zeroRows 45)
      (shape_zeroRows (F := F) 91)).1 h 1 0
    rw [rescue_block_one] at this
    simp [zeroRows] at this
  · have := (C70_only_constant_hashes _ _ _ (shape_zeroRows (F := F) 45)
      (shape_zeroRows 91)).2 h 1 0
    rw [poseidon_block_one] at this
    simp at this

/-- C70, concrete case of the table shapes. -/
example : Shape 45 (zeroRows 45 : List (List (ZMod blsR))) idMds ∧
    Shape 91 (List.replicate 91 [(1 : ZMod blsR), 2, 3]) [[2, 1, 1], [1, 2, 1], [1, 1, 3]] :=
  ⟨shape_zeroRows 45, ⟨fun i hi => by
    rw [List.getD_eq_getElem _ _ (by rw [List.length_replicate]; exact hi), List.getElem_replicate]
    rfl, rfl⟩⟩

/-! ### C71 – the Poseidon round schedule -/

/-- Row `i` of a table as a triple. -/
def row3 (t : List (List F)) (i : Nat) : S3 F :=
  ⟨(t.getD i []).getD 0 0, (t.getD i []).getD 1 0, (t.getD i []).getD 2 0⟩

def mds3 (t : List (List F)) : S3 (S3 F) := ⟨row3 t 0, row3 t 1, row3 t 2⟩

/-- The property as stated: the native block function is the Poseidon permutation with 8 full and 83
partial rounds. -/
def C71_statement (F : Type) [Field F] : Prop :=
  ∀ (ark mds : List (List F)) (xl xr : F), Shape 91 ark mds →
    Poseidon.block ark mds xl xr = (poseidonSpec 8 83 (row3 ark) (mds3 mds) ⟨xl, xr, 0⟩).a

instance : Fact (Nat.Prime 7) := ⟨by norm_num⟩

/-- Violation: over the field with seven elements (where the fifth power is a bijection). -/
theorem C71_violated : ¬ C71_statement (ZMod 7) := by
  intro h
  have := h (List.replicate 91 [1, 2, 3]) [[2, 1, 1], [1, 2, 1], [1, 1, 3]] 2 0 ⟨fun i hi => by
    rw [List.getD_eq_getElem _ _ (by rw [List.length_replicate]; exact hi), List.getElem_replicate]
    rfl, rfl⟩
  revert this
  decide +kernel

/-- What the code computes (`_partial`; missing: 82 of the 83 partial rounds are full rounds): every
round is a Poseidon round, all of them full except round 4. -/
theorem C71_schedule_partial (ark mds : List (List F)) (xl xr : F) :
    Poseidon.block ark mds xl xr = ((List.range 91).foldl
      (fun s r => poseidonRound (row3 ark) (mds3 mds) (decide (r ≠ 4)) r s) ⟨xl, xr, 0⟩).a := by
  have he : limbsVal Poseidon.ALPH = 5 := by decide
  have hfull : ∀ i, Poseidon.isFull i = decide (i ≠ 4) := by
    intro i
    show (decide (i < 4) || decide (i > 4)) = _
    rw [Bool.eq_iff_iff]
    simp only [Bool.or_eq_true, decide_eq_true_eq]
    omega
  have hstep : ∀ (s : S3 F) i, Poseidon.round ark mds [s.a, s.b, s.c] i =
      (let r := poseidonRound (row3 ark) (mds3 mds) (decide (i ≠ 4)) i s; [r.a, r.b, r.c]) := by
    intro s i
    unfold Poseidon.round poseidonRound
    rw [hfull, he]
    have e3 : List.range 3 = [0, 1, 2] := rfl
    by_cases hi : i = 4
    · simp [hi, e3, row3, mds3]
    · simp [hi, e3, row3, mds3]
  have hfold : ∀ (l : List Nat) (s : S3 F), l.foldl (Poseidon.round ark mds) [s.a, s.b, s.c] =
      (let r := l.foldl (fun s r => poseidonRound (row3 ark) (mds3 mds) (decide (r ≠ 4)) r s) s
       [r.a, r.b, r.c]) := by
    intro l
    induction l with
    | nil => intro s; rfl
    | cons i l ih => intro s; rw [List.foldl_cons, hstep, ih, List.foldl_cons]
  unfold Poseidon.block
  have := hfold (List.range 91) ⟨xl, xr, 0⟩
  rw [show Poseidon.ROUNDS = 91 from rfl, this]; rfl

/-! ### C19 – the hash interface -/

/-- The property as stated, for hashes whose output is one field element: for some function `H`, in
every satisfying assignment the output variable carries `H` of the input variables. -/
def BindsOutput (he : List (FieldOut F) → Synth F (FieldOut F)) : Prop :=
  ∃ H : List F → F, ∀ params cs out cs', he params cs = .ok (out, cs') →
    ∀ w : Index → F, w .one = 1 → cs'.Sat w →
      w out.variable_ = H (params.map fun o => w o.variable_)

/-- A freshly allocated variable is unconstrained. -/
theorem alloc_free {cs : CS F} (hg : cs.Good) (f x : F) :
    ∃ cs', FieldOut.alloc (some f) cs = .ok (⟨some f, .aux cs.aux.length⟩, cs') ∧
      ∃ w : Index → F, w .one = 1 ∧ cs'.Sat w ∧ cs.Agrees w ∧ w (.aux cs.aux.length) = x := by
  refine ⟨{ cs with aux := cs.aux ++ [f] }, ?_, ?_⟩
  · simp [FieldOut.alloc, Zkp.alloc, okOr, hg.proving, bind, StateT.bind, Except.bind, pure,
      StateT.pure, Except.pure]
  · let w : Index → F := fun i => if i = .aux cs.aux.length then x else cs.witness i
    have hw : cs.Agrees w := by
      constructor
      · intro i v h
        have := cs.witness_agrees.1 i v h
        simpa [w] using this
      · intro i v h
        have := cs.witness_agrees.2 i v h
        have hi : i < cs.aux.length := (List.getElem?_eq_some_iff.mp h).1
        have : w (.aux i) = cs.witness (.aux i) := by
          simp only [w]
          rw [if_neg (by simp; omega)]
        rw [this]; assumption
    exact ⟨w, hg.one_eq hw, hg.valid w hw, hw, by simp [w]⟩

/-- What "nothing binds the output" means: whatever the (known) inputs, after an honest run every
value at all can be given to the output variable, without touching any earlier variable. -/
def OutputFree (he : List (FieldOut F) → Synth F (FieldOut F)) : Prop :=
  ∀ (params : List (FieldOut F)) (vals : List F), params ≠ [] →
    params.map (·.value) = vals.map some → ∀ cs : CS F, cs.Good →
    ∃ out cs', he params cs = .ok (out, cs') ∧ ∀ x, ∃ w : Index → F, w .one = 1 ∧ cs'.Sat w ∧
      cs.Agrees w ∧ w out.variable_ = x

theorem OutputFree.not_binds {he : List (FieldOut F) → Synth F (FieldOut F)} (h : OutputFree he) :
    ¬ BindsOutput he := by
  rintro ⟨H, hH⟩
  obtain ⟨out, cs', hrun, hx⟩ := h [⟨some 1, .one⟩] [1] (by simp) rfl (CS.new true) CS.good_new
  obtain ⟨w, h1, h2, h3, h4⟩ := hx (H [1] + 1)
  have := hH _ _ _ _ hrun w h1 h2
  simp only [List.map_cons, List.map_nil, h1] at this
  rw [h4] at this
  simp at this

theorem paramBytes_ok {p : Nat} (n : Nat) (params : List (FieldOut (ZMod p)))
    (vals : List (ZMod p)) (h : params.map (·.value) = vals.map some) :
    paramBytes n params = .ok (vals.flatMap fun v => leBytes n v.val) := by
  have : params.mapM (fun o => okOr o.value) = (.ok vals : Except SynthesisError _) := by
    induction params generalizing vals with
    | nil => cases vals <;> simp_all [pure, Except.pure]
    | cons o l ih =>
      cases vals with
      | nil => simp at h
      | cons v vals =>
        simp only [List.map_cons, List.cons.injEq] at h
        rw [List.mapM_cons, h.1, ih vals h.2]
        rfl
  simp only [paramBytes, this, bind, Except.bind, pure, Except.pure]

theorem leBytes_length (n v : Nat) : (leBytes n v).length = n := by
  induction n generalizing v with
  | zero => rfl
  | succ n ih => simp [leBytes, ih]

theorem bytesToField_ne {p n : Nat} (hn : 0 < n) (vals : List (ZMod p)) (hv : vals ≠ []) :
    bytesToField p n (vals.flatMap fun v => leBytes n v.val) ≠ [] := by
  obtain ⟨v, l, rfl⟩ := List.exists_cons_of_ne_nil hv
  unfold bytesToField
  have : (v :: l).flatMap (fun v => leBytes n v.val) ≠ [] := by
    intro h
    have := congrArg List.length h
    simp [leBytes_length] at this
    omega
  unfold chunks
  rw [dif_neg (by simp only [not_or]; exact ⟨by omega, this⟩)]
  simp

/-- Violation: MiMC, every prime field, every element size, all constants. -/
theorem C19_mimc_output_free (p n : Nat) [Fact p.Prime] (hn : 0 < n) (k : List (ZMod p)) :
    OutputFree (Mimc.hashEnforce n k) := by
  intro params vals hne hv cs hg
  have hvne : vals ≠ [] := by
    rintro rfl
    simp at hv; exact hne hv
  have hb := paramBytes_ok n params vals hv
  obtain ⟨xl, xr, h, hh⟩ : ∃ xl xr h, Mimc.hashBytes n (vals.flatMap fun v => leBytes n v.val) k =
      some (xl, xr, h) := by
    unfold Mimc.hashBytes Mimc.hashElems
    have := bytesToField_ne hn vals hvne
    cases hl : (bytesToField p n (vals.flatMap fun v => leBytes n v.val)).getLast? with
    | none => exact absurd (List.getLast?_eq_none_iff.mp hl) this
    | some x => exact ⟨_, _, _, rfl⟩
  obtain ⟨r, cs1, h1, e1, g1, _⟩ := Mimc.circuit_cmp k (cs := cs) xl xr hg
  obtain ⟨cs2, h2, h3⟩ := alloc_free g1 h 0
  refine ⟨⟨some h, .aux cs1.aux.length⟩, cs2, ?_, fun x => ?_⟩
  · unfold Mimc.hashEnforce Mimc.mimc
    rw [hb]
    simp only [hh]
    simp only [bind, StateT.bind, Except.bind, h1, pure, StateT.pure, Except.pure, h2]
  · obtain ⟨cs2', h2', w, a, b, c, d⟩ := alloc_free g1 h x
    rw [h2, Except.ok.injEq, Prod.mk.injEq] at h2'
    obtain ⟨-, rfl⟩ := h2'
    exact ⟨w, a, b, e1.agrees c, d⟩

/-- Violation: Rescue, all tables of the right shape. -/
theorem C19_rescue_output_free (p n : Nat) [Fact p.Prime] (hn : 0 < n) (rc mds : List (List (ZMod p)))
    (hs : Shape 45 rc mds) : OutputFree (Rescue.hashEnforce n rc mds) := by
  intro params vals hne hv cs hg
  have hvne : vals ≠ [] := by
    rintro rfl
    simp at hv; exact hne hv
  have hb := paramBytes_ok n params vals hv
  obtain ⟨xl, xr, h, hh⟩ : ∃ xl xr h, Rescue.hashElems rc mds
      (bytesToField p n (vals.flatMap fun v => leBytes n v.val)) = some (xl, xr, h) := by
    unfold Rescue.hashElems
    have := bytesToField_ne hn vals hvne
    cases hl : (bytesToField p n (vals.flatMap fun v => leBytes n v.val)).getLast? with
    | none => exact absurd (List.getLast?_eq_none_iff.mp hl) this
    | some x => exact ⟨_, _, _, rfl⟩
  obtain ⟨r, cs1, h1, e1, g1, _⟩ := Rescue.circuit_cmp (cs := cs) rc mds hs.mds
    (fun i hi => hs.rows i (by omega)) xl xr hg
  obtain ⟨cs2, h2, h3⟩ := alloc_free g1 h 0
  refine ⟨⟨some h, .aux cs1.aux.length⟩, cs2, ?_, fun x => ?_⟩
  · unfold Rescue.hashEnforce Rescue.rescue
    rw [hb]
    simp only [hh]
    simp only [bind, StateT.bind, Except.bind, h1, pure, StateT.pure, Except.pure, h2]
  · obtain ⟨cs2', h2', w, a, b, c, d⟩ := alloc_free g1 h x
    rw [h2, Except.ok.injEq, Prod.mk.injEq] at h2'
    obtain ⟨-, rfl⟩ := h2'
    exact ⟨w, a, b, e1.agrees c, d⟩

/-- Violation: Poseidon, all tables of the right shape. -/
theorem C19_poseidon_output_free (p n : Nat) [Fact p.Prime] (hn : 0 < n)
    (ark mds : List (List (ZMod p))) (hs : Shape 91 ark mds) :
    OutputFree (Poseidon.hashEnforce n ark mds) := by
  intro params vals hne hv cs hg
  have hvne : vals ≠ [] := by
    rintro rfl
    simp at hv; exact hne hv
  have hb := paramBytes_ok n params vals hv
  obtain ⟨xl, xr, h, hh⟩ : ∃ xl xr h, Poseidon.hashElems ark mds
      (bytesToField p n (vals.flatMap fun v => leBytes n v.val)) = some (xl, xr, h) := by
    unfold Poseidon.hashElems
    have := bytesToField_ne hn vals hvne
    cases hl : (bytesToField p n (vals.flatMap fun v => leBytes n v.val)).getLast? with
    | none => exact absurd (List.getLast?_eq_none_iff.mp hl) this
    | some x => exact ⟨_, _, _, rfl⟩
  obtain ⟨r, cs1, h1, e1, g1, _⟩ := Poseidon.circuit_cmp (cs := cs) ark mds hs.mds hs.rows xl xr hg
  obtain ⟨cs2, h2, h3⟩ := alloc_free g1 h 0
  refine ⟨⟨some h, .aux cs1.aux.length⟩, cs2, ?_, fun x => ?_⟩
  · unfold Poseidon.hashEnforce Poseidon.poseidon
    rw [hb]
    simp only [hh]
    simp only [bind, StateT.bind, Except.bind, h1, pure, StateT.pure, Except.pure, h2]
  · obtain ⟨cs2', h2', w, a, b, c, d⟩ := alloc_free g1 h x
    rw [h2, Except.ok.injEq, Prod.mk.injEq] at h2'
    obtain ⟨-, rfl⟩ := h2'
    exact ⟨w, a, b, e1.agrees c, d⟩

/-- The property fails for the three field hashes. -/
theorem C19_violated_field_hashes (p n : Nat) [Fact p.Prime] (hn : 0 < n) (k : List (ZMod p))
    (rc ark mds : List (List (ZMod p))) (hr : Shape 45 rc mds) (ha : Shape 91 ark mds) :
    ¬ BindsOutput (Mimc.hashEnforce n k) ∧ ¬ BindsOutput (Rescue.hashEnforce n rc mds) ∧
    ¬ BindsOutput (Poseidon.hashEnforce n ark mds) :=
  ⟨(C19_mimc_output_free p n hn k).not_binds, (C19_rescue_output_free p n hn rc mds hr).not_binds,
    (C19_poseidon_output_free p n hn ark mds ha).not_binds⟩

/-! SHA-256: the interface returns 256 freshly allocated bits. -/

theorem allocBit_run (cs : CS F) (hp : cs.proving = true) (x : Bool) :
    unwrapS (AllocatedBit.alloc (some x)) cs = .ok (⟨.aux cs.aux.length, some x⟩,
      { cs with aux := cs.aux ++ [boolF x],
                constraints := cs.constraints ++ [⟨(LC.zero.addVar .one).subVar (.aux cs.aux.length),
                  LC.zero.addVar (.aux cs.aux.length), LC.zero⟩] }) := by
  simp [unwrapS, AllocatedBit.alloc, Zkp.alloc, bitClosure, okOr, hp, bind, StateT.bind, Except.bind,
    pure, StateT.pure, Except.pure, enforce]

theorem freshBits {cs0 : CS F} (hg : cs0.Good) (bs : List Boolean) :
    ∀ (xs : List Bool) (cs : CS F) (k : Nat), bs.map (·.getValue) = xs.map some →
      cs.proving = true → cs.aux.length = cs0.aux.length + k →
      (∀ w : Index → F, cs0.Agrees w →
        (∀ i < k, w (.aux (cs0.aux.length + i)) = 0 ∨ w (.aux (cs0.aux.length + i)) = 1) →
        cs.Sat w) →
      ∃ cs', (bs.mapM fun b => (do
          let a ← unwrapS (AllocatedBit.alloc b.getValue)
          return a.variable_ : Synth F Index)) cs = .ok
            ((List.range' (cs0.aux.length + k) bs.length).map .aux, cs') ∧
        ∀ w : Index → F, cs0.Agrees w →
          (∀ i < k + bs.length, w (.aux (cs0.aux.length + i)) = 0 ∨
            w (.aux (cs0.aux.length + i)) = 1) → cs'.Sat w := by
  induction bs with
  | nil => intro xs cs k _ _ _ h; exact ⟨cs, rfl, by simpa using h⟩
  | cons b bs ih =>
    intro xs cs k hx hp hl h
    cases xs with
    | nil => simp at hx
    | cons x xs =>
      simp only [List.map_cons, List.cons.injEq] at hx
      rw [List.mapM_cons]
      have h1 := allocBit_run cs hp x
      obtain ⟨cs', hrun, hsat⟩ := ih xs { cs with
          aux := cs.aux ++ [boolF x],
          constraints := cs.constraints ++ [⟨(LC.zero.addVar .one).subVar (.aux cs.aux.length),
            LC.zero.addVar (.aux cs.aux.length), LC.zero⟩] } (k + 1) hx.2 hp
        (by simp [hl]; omega) (by
          intro w hw hb c hc
          simp only [List.mem_append, List.mem_singleton] at hc
          rcases hc with hc | rfl
          · exact h w hw (fun i hi => hb i (by omega)) c hc
          · have ho := hg.one_eq hw
            have := hb k (by omega)
            rw [← hl] at this
            unfold R1C.Holds
            simp [ho]
            rcases this with h | h <;> simp [h])
      refine ⟨cs', ?_, fun w hw hb => hsat w hw fun i hi => hb i (by simp; omega)⟩
      simp only [bind, StateT.bind, Except.bind, hx.1, h1, pure, StateT.pure, Except.pure] at hrun ⊢
      rw [hrun]
      simp only [List.length_cons, List.range'_succ, List.map_cons, hl]
      congr 1

/-- Violation, SHA-256: after an honest run, the returned output variables can be given any 256 bits
whatever, without touching any variable allocated before. -/
theorem C19_sha_output_free (p : Nat) [Fact p.Prime] (hp : 64 ≤ Nat.size p) (params : List BitsOut)
    (vals : List (List Boolean)) (hv : params.map (·.value) = vals.map some) (cs : CS (ZMod p))
    (hgood : cs.Good) (msg : List Bool) (h8 : msg.length % 8 = 0)
    (hin : List.Forall₂ (fun b x => b.Known cs x) vals.flatten msg) :
    ∃ out cs', Sha.hashEnforce (capacity p) params cs = .ok (out, cs') ∧
      ∀ t : List Bool, t.length = 256 → ∃ w : Index → ZMod p, w .one = 1 ∧ cs'.Sat w ∧
        cs.Agrees w ∧ out.vars.map w = t.map fun x => if x then 1 else 0 := by
  obtain ⟨bs, cs1, h1, e1, g1, hk⟩ := (Sha.sha256_impl (capOK_zmod p)
    (by unfold capacity; omega) vals.flatten msg hin.length_eq
    (by rw [hin.length_eq]; exact h8)).cmp cs hin hgood
  have hbv : bs.map (·.getValue) = (Sha256.hash msg).map some := by
    have : List.Forall₂ (fun (b : Boolean) x => b.getValue = some x) bs (Sha256.hash msg) :=
      hk.imp fun _ _ h => h.1
    generalize Sha256.hash msg = l at this
    clear hk h1
    induction this with
    | nil => rfl
    | cons h _ ih => simp only [List.map_cons, h, ih]
  have hlen : bs.length = 256 := by rw [hk.length_eq]; simp [Sha256.hash, Sha256.St.toBits, bitsBE, length_bitsLE]
  obtain ⟨cs2, h2, hfree⟩ := freshBits g1 bs (Sha256.hash msg) cs1 0 hbv g1.proving rfl
    (fun w hw _ => g1.valid w hw)
  have hm : params.mapM (fun o => o.value) = some vals := by
    clear h1 hin
    induction params generalizing vals with
    | nil => cases vals <;> simp_all
    | cons o l ih =>
      cases vals with
      | nil => simp at hv
      | cons v vals =>
        simp only [List.map_cons, List.cons.injEq] at hv
        rw [List.mapM_cons, hv.1, ih vals hv.2]; rfl
  refine ⟨⟨some bs, (List.range' (cs1.aux.length + 0) bs.length).map .aux⟩, cs2, ?_, ?_⟩
  · unfold Sha.hashEnforce
    rw [hm]
    simp only [bind, StateT.bind, Except.bind, pure, StateT.pure, Except.pure] at h2 ⊢
    rw [h1]
    simp only [h2]
  · intro t ht
    let w : Index → ZMod p := fun i => match i with
      | .input j => cs1.witness (.input j)
      | .aux j => if j < cs1.aux.length then cs1.witness (.aux j)
          else if t.getD (j - cs1.aux.length) false then 1 else 0
    have hw : cs1.Agrees w := by
      constructor
      · intro i v h
        exact cs1.witness_agrees.1 i v h
      · intro i v h
        have := cs1.witness_agrees.2 i v h
        have hi : i < cs1.aux.length := (List.getElem?_eq_some_iff.mp h).1
        simp only [w, if_pos hi]; exact this
    refine ⟨w, g1.one_eq hw, hfree w hw fun i _ => ?_, e1.agrees hw, ?_⟩
    · simp only [w]
      rw [if_neg (by omega)]
      cases t.getD _ false <;> simp
    · apply List.ext_getElem
      · simp [hlen, ht]
      · intro i hi hi'
        have hit : i < t.length := by simpa using hi'
        simp only [List.getElem_map, List.getElem_range', w]
        rw [if_neg (by omega)]
        have : cs1.aux.length + 0 + 1 * i - cs1.aux.length = i := by omega
        rw [this, List.getD_eq_getElem _ _ hit]

/-- The property as stated, for hashes on bits. -/
def BindsBits (he : List BitsOut → Synth F BitsOut) : Prop :=
  ∃ H : List Bool → List Bool, ∀ params cs out cs', he params cs = .ok (out, cs') →
    ∀ w : Index → F, w .one = 1 → cs'.Sat w → ∀ msg : List Bool,
      (params.flatMap (·.vars)).map w = msg.map (fun x => if x then 1 else 0) →
      out.vars.map w = (H msg).map fun x => if x then 1 else 0

theorem C19_violated_sha (p : Nat) [Fact p.Prime] (hp : 64 ≤ Nat.size p) :
    ¬ BindsBits (F := ZMod p) (Sha.hashEnforce (capacity p)) := by
  rintro ⟨H, hH⟩
  obtain ⟨out, cs', hrun, hfree⟩ := C19_sha_output_free p hp [] [] rfl (CS.new true) CS.good_new []
    rfl .nil
  obtain ⟨w, a, b, _, c⟩ := hfree (List.replicate 256 true) List.length_replicate
  obtain ⟨w', a', b', _, c'⟩ := hfree (List.replicate 256 false) List.length_replicate
  have h1 := hH _ _ _ _ hrun w a b [] rfl
  have h2 := hH _ _ _ _ hrun w' a' b' [] rfl
  rw [c] at h1
  rw [c', ← h1] at h2
  rw [List.map_replicate, List.map_replicate] at h2
  exact absurd (List.replicate_right_inj (by omega) |>.mp h2) (by simp)

/-- C19, concrete case: a parameter of 32 allocated bits with known values in a good state. -/
example : 64 ≤ Nat.size blsR ∧ ∃ (o : BitsOut) (v : List Boolean) (cs : CS (ZMod blsR)),
    cs.Good ∧ o.value = some v ∧ o.vars.length = 32 ∧
    List.Forall₂ (fun b x => b.Known cs x) v (bitsLE 0xdeadbeef#32) := by
  refine ⟨by rw [size_blsR]; omega, ?_⟩
  obtain ⟨u, cs', -, -, hg, hk⟩ := UInt32G.alloc_cmp (cs := CS.new true) 0xdeadbeef#32
    (CS.good_new (F := ZMod blsR))
  have h := (DK_good cs').toBits u _ hk
  exact ⟨⟨some u.bits, (List.range 32).map .aux⟩, u.bits, cs', hg, rfl, by simp, h⟩

/-! What does hold of the interface (`_partial`; missing: the link between output variables and
input variables in dishonest assignments). -/

theorem readLe_leBytes' (n v : Nat) (rest : List UInt8) :
    readLe n (leBytes n v ++ rest) = some (v % 256 ^ n, rest) := by
  induction n generalizing v with
  | zero => simp [leBytes, readLe, Nat.mod_one]
  | succ n ih =>
    simp only [leBytes, List.cons_append, readLe, ih]
    congr 2
    rw [UInt8.toNat_ofNat', show (256 : Nat) ^ (n + 1) = 256 * 256 ^ n by rw [pow_succ, mul_comm],
      Nat.mod_mul]
    omega

theorem bytesToField_values (p n : Nat) [Fact p.Prime] (hn : 0 < n) (hp : p ≤ 256 ^ n)
    (vals : List (ZMod p)) : bytesToField p n (vals.flatMap fun v => leBytes n v.val) = vals := by
  unfold bytesToField
  induction vals with
  | nil => simp [chunks]
  | cons v vals ih =>
    have hlen := leBytes_length n v.val
    rw [List.flatMap_cons]
    conv => lhs; unfold chunks
    rw [dif_neg (by
        simp only [not_or, List.append_eq_nil_iff, not_and]
        exact ⟨by omega, fun h => by rw [h] at hlen; simp at hlen; omega⟩)]
    have ht : (leBytes n v.val ++ vals.flatMap fun v => leBytes n v.val).take n = leBytes n v.val := by
      rw [List.take_append_of_le_length (by omega), List.take_of_length_le (by omega)]
    have hd : (leBytes n v.val ++ vals.flatMap fun v => leBytes n v.val).drop n =
        vals.flatMap fun v => leBytes n v.val := by
      rw [List.drop_append_of_le_length (by omega), List.drop_of_length_le (by omega)]
      rfl
    rw [ht, hd, List.map_cons, ih]
    have := readLe_leBytes' n v.val []
    rw [List.append_nil] at this
    simp only [this]
    have hv : v.val < p := ZMod.val_lt v
    rw [Nat.mod_eq_of_lt (by omega), if_pos hv, ZMod.natCast_zmod_val]

/-- Honest MiMC runs through the interface: the output variable carries the MiMC chaining of the
parameter values. -/
theorem C19_mimc_honest_partial (p n : Nat) [Fact p.Prime] (hn : 0 < n) (hp : p ≤ 256 ^ n)
    (k : List (ZMod p)) (hk : k.length = 322) (params : List (FieldOut (ZMod p)))
    (vals : List (ZMod p)) (hne : params ≠ []) (hv : params.map (·.value) = vals.map some)
    (cs : CS (ZMod p)) (hg : cs.Good) :
    ∃ out cs', Mimc.hashEnforce n k params cs = .ok (out, cs') ∧ cs'.Good ∧
      out.value = some (mimcChain k vals) ∧ VarIs cs' out.variable_ (mimcChain k vals) := by
  have hvne : vals ≠ [] := by
    rintro rfl
    simp at hv; exact hne hv
  obtain ⟨v, x, rfl⟩ : ∃ v x, vals = v ++ [x] := ⟨vals.dropLast, vals.getLast hvne,
    (List.dropLast_append_getLast hvne).symm⟩
  have hb := paramBytes_ok n params _ hv
  have hh : Mimc.hashBytes n ((v ++ [x]).flatMap fun v => leBytes n v.val) k =
      some (mimcChain k v, x, mimcChain k (v ++ [x])) := by
    unfold Mimc.hashBytes
    rw [bytesToField_values p n hn hp, Mimc.hashElems_eq hk]
  obtain ⟨r, cs1, h1, e1, g1, _⟩ := Mimc.circuit_cmp k (cs := cs) (mimcChain k v) x hg
  obtain ⟨o, cs2, h2, e2, g2, h3⟩ :=
    (Cmp.alloc' (cs := cs1) (f := okOr (some (mimcChain k (v ++ [x])))) rfl) g1
  refine ⟨⟨some (mimcChain k (v ++ [x])), o⟩, cs2, ?_, g2, rfl, h3⟩
  unfold Mimc.hashEnforce Mimc.mimc
  rw [hb]
  simp only [hh]
  simp only [bind, StateT.bind, Except.bind, h1, pure, StateT.pure, Except.pure, FieldOut.alloc, h2]

/-- SHA-256: the Booleans cached in the output (not the output variables) are bound, in every
satisfying assignment, to the hash of the message the parameters' Booleans represent. -/
theorem C19_sha_value_partial (p : Nat) [Fact p.Prime] (hp : 64 ≤ Nat.size p) (params : List BitsOut)
    (vals : List (List Boolean)) (hv : params.mapM (fun o => o.value) = some vals)
    (cs cs' : CS (ZMod p)) (out : BitsOut)
    (hrun : Sha.hashEnforce (capacity p) params cs = .ok (out, cs')) (w : Index → ZMod p)
    (hone : w .one = 1) (hsat : cs'.Sat w) (msg : List Bool)
    (hin : List.Forall₂ (fun b x => b.Rep w x) vals.flatten msg) :
    ∃ bs, out.value = some bs ∧ List.Forall₂ (fun b x => b.Rep w x) bs (Sha256.hash msg) := by
  unfold Sha.hashEnforce at hrun
  rw [hv] at hrun
  obtain ⟨bs, cs1, h1, h2⟩ := Synth.bind_ok.mp hrun
  have h8 : vals.flatten.length % 8 = 0 := by
    by_contra h
    unfold Sha.sha256 at h1
    rw [if_neg h] at h1
    simp [panicS] at h1
  obtain ⟨vs, cs2, h3, h4⟩ := Synth.bind_ok.mp h2
  obtain ⟨rfl, rfl⟩ := Synth.pure_ok.mp h4
  refine ⟨bs, rfl, ?_⟩
  have hext : cs1.Ext cs2 := by
    clear h2 h4 h1 hrun
    induction bs generalizing cs1 vs with
    | nil =>
      obtain ⟨-, rfl⟩ := Synth.pure_ok.mp h3
      exact .refl _
    | cons b bs ih =>
      rw [List.mapM_cons] at h3
      obtain ⟨a, c1, g1, g2⟩ := Synth.bind_ok.mp h3
      obtain ⟨l, c2, g3, g4⟩ := Synth.bind_ok.mp g2
      obtain ⟨-, rfl⟩ := Synth.pure_ok.mp g4
      obtain ⟨a', c1', g5, g6⟩ := Synth.bind_ok.mp g1
      obtain ⟨-, rfl⟩ := Synth.pure_ok.mp g6
      refine .trans ?_ (ih _ _ g3)
      unfold unwrapS at g5
      split at g5
      · rename_i r hr
        cases g5
        exact (AllocatedBit.alloc_snd _ _ _ _ hr).1
      · simp at g5
  obtain ⟨e, q⟩ := (Sha.sha256_impl (capOK_zmod p) (by unfold capacity; omega) vals.flatten msg
    hin.length_eq h8).snd cs bs cs1 h1
  exact (q w hone (hext.sat hsat)).2 hin

end Zkp
