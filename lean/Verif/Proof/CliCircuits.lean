/- The circuits of the command-line tools with and without values: same constraints, same sizes. -/
import Verif.Model.CliTool
import Verif.Props.Tools

set_option linter.unusedSectionVars false
set_option linter.unusedSimpArgs false

namespace Zkp.Cli

section
variable {F : Type} [Field F]

theorem lc_var (i : Index) : (LC.zero : LC F).addVar i = [(i, 1)] := by
  simp [LC.addVar, LC.addTerm, LC.zero, LC.getVarLoc, LC.scanLoc]

theorem lc_one (i : Nat) (c : F) :
    ((LC.zero : LC F).addVar (.aux i)).addTerm c .one = [(.input 0, c), (.aux i, 1)] := by
  rw [lc_var]
  simp [LC.addTerm, LC.getVarLoc, LC.scanLoc, Index.one, Index.cmp]

theorem lc_sub (i j : Nat) (h : i < j) :
    ((LC.zero : LC F).addVar (.aux j)).subVar (.aux i) = [(.aux i, -1), (.aux j, 1)] := by
  rw [lc_var]
  have : compare j i = .gt := Nat.compare_eq_gt.mpr h
  simp [LC.subVar, LC.subTerm, LC.addTerm, LC.getVarLoc, LC.scanLoc, Index.cmp, this]

/-- No combination of the constraint mentions a variable twice, and all variables are in range. -/
def R1C.Tidy (ni na : Nat) (k : R1C F) : Prop :=
  (k.a.NoRepeat ∧ k.b.NoRepeat ∧ k.c.NoRepeat) ∧
    ∀ t ∈ k.a ++ k.b ++ k.c, match t.1 with
      | .input i => i < ni
      | .aux i => i < na

theorem R1C.Tidy.mono {ni na ni' na' : Nat} {k : R1C F} (h : R1C.Tidy ni na k) (h1 : ni ≤ ni') (h2 : na ≤ na') :
    R1C.Tidy ni' na' k := by
  refine ⟨h.1, fun t ht => ?_⟩
  have := h.2 t ht
  revert this
  cases t.1 with
  | input i => simp only; omega
  | aux i => simp only; omega

/-- A run with values and a run without, side by side. -/
structure Twin (c1 c2 : CS F) : Prop where
  on : c1.proving = true
  off : c2.proving = false
  inputs : c1.inputs.length = c2.inputs.length
  pos : 0 < c1.inputs.length
  aux : c1.aux.length = c2.aux.length
  cons : c1.constraints = c2.constraints
  tidy : ∀ k ∈ c1.constraints, R1C.Tidy c1.inputs.length c1.aux.length k

theorem Twin.new : Twin (CS.new true : CS F) (CS.new false) :=
  ⟨rfl, rfl, rfl, by simp [CS.new], rfl, rfl, by simp [CS.new]⟩

theorem Twin.alloc {c1 c2 : CS F} (t : Twin c1 c2) (v : F) (f : Except SynthesisError F) :
    ∃ c1' c2', Zkp.alloc (.ok v) c1 = .ok (.aux c1.aux.length, c1') ∧
      Zkp.alloc f c2 = .ok (.aux c1.aux.length, c2') ∧ Twin c1' c2' ∧
      c1'.inputs = c1.inputs ∧ c1'.aux.length = c1.aux.length + 1 := by
  refine ⟨{ c1 with aux := c1.aux ++ [v] }, { c2 with aux := c2.aux ++ [0] }, by simp [Zkp.alloc, t.on],
    by simp [Zkp.alloc, t.off, t.aux], ⟨t.on, t.off, t.inputs, t.pos, by simp [t.aux], t.cons, fun k hk => ?_⟩, rfl,
    by simp⟩
  exact (t.tidy k hk).mono le_rfl (by simp)

theorem Twin.allocInput {c1 c2 : CS F} (t : Twin c1 c2) (v : F) (f : Except SynthesisError F) :
    ∃ c1' c2', Zkp.allocInput (.ok v) c1 = .ok (.input c1.inputs.length, c1') ∧
      Zkp.allocInput f c2 = .ok (.input c1.inputs.length, c2') ∧ Twin c1' c2' ∧
      c1'.inputs = c1.inputs ++ [v] ∧ c1'.aux.length = c1.aux.length := by
  refine ⟨{ c1 with inputs := c1.inputs ++ [v] }, { c2 with inputs := c2.inputs ++ [0] },
    by simp [Zkp.allocInput, t.on], by simp [Zkp.allocInput, t.off, t.inputs],
    ⟨t.on, t.off, by simp [t.inputs], by simp, t.aux, t.cons, fun k hk => ?_⟩, rfl, rfl⟩
  exact (t.tidy k hk).mono (by simp) le_rfl

theorem Twin.enforce {c1 c2 : CS F} (t : Twin c1 c2) (a b c : LC F)
    (h : R1C.Tidy c1.inputs.length c1.aux.length ⟨a, b, c⟩) :
    ∃ c1' c2', Zkp.enforce a b c c1 = .ok ((), c1') ∧ Zkp.enforce a b c c2 = .ok ((), c2') ∧ Twin c1' c2' ∧
      c1'.inputs = c1.inputs ∧ c1'.aux.length = c1.aux.length := by
  refine ⟨{ c1 with constraints := c1.constraints ++ [⟨a, b, c⟩] },
    { c2 with constraints := c2.constraints ++ [⟨a, b, c⟩] }, rfl, rfl,
    ⟨t.on, t.off, t.inputs, t.pos, t.aux, by simp [t.cons], fun k hk => ?_⟩, rfl, rfl⟩
  rcases List.mem_append.mp hk with hk | hk
  · exact t.tidy k hk
  · rw [List.mem_singleton.mp hk]; exact h

theorem round_twin (k : List F) {c1 c2 : CS F} (t : Twin c1 c2) (i j : Nat) (hi : i < c1.aux.length)
    (hj : j < c1.aux.length) (xl xr : F) (n : Nat) :
    ∃ i' j' xl' xr' c1' c2',
      Mimc.round k ⟨.aux i, .aux j, some xl, some xr⟩ n c1 = .ok (⟨.aux i', .aux j', some xl', some xr'⟩, c1') ∧
      Mimc.round k ⟨.aux i, .aux j, none, none⟩ n c2 = .ok (⟨.aux i', .aux j', none, none⟩, c2') ∧
      Twin c1' c2' ∧ c1'.inputs = c1.inputs ∧ i' < c1'.aux.length ∧ j' < c1'.aux.length := by
  have hp := t.pos
  obtain ⟨a1, a2, ha1, ha2, ta, ia, la⟩ := t.alloc ((xl + k.getD n 0) * (xl + k.getD n 0))
    (.error .assignmentMissing)
  obtain ⟨b1, b2, hb1, hb2, tb, ib, lb⟩ := ta.enforce (((LC.zero : LC F).addVar (.aux i)).addTerm (k.getD n 0) .one)
    ((LC.zero.addVar (.aux i)).addTerm (k.getD n 0) .one) (LC.zero.addVar (.aux c1.aux.length)) (by
      rw [lc_one, lc_var]
      refine ⟨by simp [LC.NoRepeat], ?_⟩
      rw [ia, la]
      simp
      omega)
  obtain ⟨d1, d2, hd1, hd2, td, id, ld⟩ := tb.alloc
    ((xl + k.getD n 0) * ((xl + k.getD n 0) * (xl + k.getD n 0)) + xr) (.error .assignmentMissing)
  have hb : b1.aux.length = c1.aux.length + 1 := by omega
  obtain ⟨e1, e2, he1, he2, te, ie, le⟩ := td.enforce ((LC.zero : LC F).addVar (.aux c1.aux.length))
    ((LC.zero.addVar (.aux i)).addTerm (k.getD n 0) .one)
    ((LC.zero.addVar (.aux b1.aux.length)).subVar (.aux j)) (by
      rw [lc_one, lc_var, lc_sub _ _ (by omega)]
      refine ⟨by simp [LC.NoRepeat]; omega, ?_⟩
      rw [id, ib, ia, ld, hb]
      simp
      omega)
  refine ⟨b1.aux.length, i, (xl + k.getD n 0) * ((xl + k.getD n 0) * (xl + k.getD n 0)) + xr, xl, e1, e2, ?_, ?_, te, by rw [ie, id, ib, ia], by omega, by omega⟩
  · simp only [Mimc.round, Option.map_some, okOr, bind, StateT.bind, Except.bind, ha1, hb1, hd1, he1, pure,
      StateT.pure, Except.pure]
  · simp only [Mimc.round, Option.map_none, okOr, bind, StateT.bind, Except.bind, ha2, hb2, hd2, he2, pure,
      StateT.pure, Except.pure]

theorem rounds_twin (k : List F) (l : List Nat) : ∀ {c1 c2 : CS F} (_ : Twin c1 c2) (i j : Nat)
    (_ : i < c1.aux.length) (_ : j < c1.aux.length) (xl xr : F),
    ∃ s1 s2 c1' c2', l.foldlM (Mimc.round k) ⟨.aux i, .aux j, some xl, some xr⟩ c1 = .ok (s1, c1') ∧
      l.foldlM (Mimc.round k) ⟨.aux i, .aux j, none, none⟩ c2 = .ok (s2, c2') ∧
      Twin c1' c2' ∧ c1'.inputs = c1.inputs := by
  induction l with
  | nil => intro c1 c2 t i j _ _ xl xr; exact ⟨_, _, c1, c2, rfl, rfl, t, rfl⟩
  | cons n l ih =>
    intro c1 c2 t i j hi hj xl xr
    obtain ⟨i', j', xl', xr', d1, d2, h1, h2, td, ed, hi', hj'⟩ := round_twin k t i j hi hj xl xr n
    obtain ⟨s1, s2, e1, e2, g1, g2, te, ee⟩ := ih td i' j' hi' hj' xl' xr'
    refine ⟨s1, s2, e1, e2, ?_, ?_, te, ee.trans ed⟩
    · rw [List.foldlM_cons]; simp only [bind, StateT.bind, Except.bind, h1, g1]
    · rw [List.foldlM_cons]; simp only [bind, StateT.bind, Except.bind, h2, g2]

theorem circuit_twin (k : List F) {c1 c2 : CS F} (t : Twin c1 c2) (xl xr : F) :
    ∃ r1 r2 c1' c2', Mimc.circuit k (some xl) (some xr) c1 = .ok (r1, c1') ∧
      Mimc.circuit k none none c2 = .ok (r2, c2') ∧ Twin c1' c2' ∧ c1'.inputs = c1.inputs := by
  obtain ⟨a1, a2, ha1, ha2, ta, ia, la⟩ := t.alloc xl (.error .assignmentMissing)
  obtain ⟨b1, b2, hb1, hb2, tb, ib, lb⟩ := ta.alloc xr (.error .assignmentMissing)
  obtain ⟨s1, s2, d1, d2, h1, h2, td, ed⟩ := rounds_twin k (List.range Mimc.ROUNDS) tb c1.aux.length a1.aux.length
    (by omega) (by omega) xl xr
  refine ⟨((.aux c1.aux.length, .aux a1.aux.length), s1), ((.aux c1.aux.length, .aux a1.aux.length), s2), d1, d2,
    ?_, ?_, td, by rw [ed, ib, ia]⟩
  · simp only [Mimc.circuit, okOr, bind, StateT.bind, Except.bind, ha1, hb1, h1, pure, StateT.pure, Except.pure]
  · simp only [Mimc.circuit, okOr, bind, StateT.bind, Except.bind, ha2, hb2, h2, pure, StateT.pure, Except.pure]

theorem miniLoop_twin (num : Nat) : ∀ {c1 c2 : CS F} (_ : Twin c1 c2) (i j l : Nat) (_ : i < c1.aux.length)
    (_ : j < c1.aux.length) (_ : l < c1.inputs.length),
    ∃ c1' c2', miniLoop (.aux i) (.aux j) (.input l) num c1 = .ok ((), c1') ∧
      miniLoop (.aux i) (.aux j) (.input l) num c2 = .ok ((), c2') ∧ Twin c1' c2' ∧ c1'.inputs = c1.inputs := by
  induction num with
  | zero => intro c1 c2 t i j l _ _ _; exact ⟨c1, c2, rfl, rfl, t, rfl⟩
  | succ num ih =>
    intro c1 c2 t i j l hi hj hl
    have hp := t.pos
    obtain ⟨a1, a2, ha1, ha2, ta, ia, la⟩ := t.enforce ((LC.zero : LC F).addVar (.aux i))
      ((LC.zero.addVar (.aux j)).addTerm 2 .one) (LC.zero.addVar (.input l)) (by
        rw [lc_one, lc_var, lc_var]
        refine ⟨by simp [LC.NoRepeat], ?_⟩
        simp
        omega)
    obtain ⟨b1, b2, hb1, hb2, tb, ib⟩ := ih ta i j l (by omega) (by omega) (by rw [ia]; exact hl)
    refine ⟨b1, b2, ?_, ?_, tb, by rw [ib, ia]⟩
    · simp only [miniLoop, bind, StateT.bind, Except.bind, ha1, hb1]
    · simp only [miniLoop, bind, StateT.bind, Except.bind, ha2, hb2]

theorem mini_twin (x y z : F) (num : Nat) :
    ∃ r1 r2 c1 c2, mini (some x) (some y) (some z) num (CS.new true) = .ok (r1, c1) ∧
      mini (none : Option F) none none num (CS.new false) = .ok (r2, c2) ∧ Twin c1 c2 ∧ c1.inputs = [1, z] := by
  obtain ⟨a1, a2, ha1, ha2, ta, ia, la⟩ := (Twin.new (F := F)).alloc x (.error .assignmentMissing)
  obtain ⟨b1, b2, hb1, hb2, tb, ib, lb⟩ := ta.alloc y (.error .assignmentMissing)
  obtain ⟨d1, d2, hd1, hd2, td, id, ld⟩ := tb.allocInput z (.error .assignmentMissing)
  obtain ⟨e1, e2, he1, he2, te, ie⟩ := miniLoop_twin num td (CS.new true : CS F).aux.length a1.aux.length
    b1.inputs.length (by omega) (by omega) (by rw [id]; simp)
  refine ⟨(.aux 0, .aux a1.aux.length, .input b1.inputs.length), (.aux 0, .aux a1.aux.length,
    .input b1.inputs.length), e1, e2, ?_, ?_, te, by rw [ie, id, ib, ia]; rfl⟩
  · simp only [mini, okOr, bind, StateT.bind, Except.bind, ha1, hb1, hd1, he1, pure, StateT.pure, Except.pure]
    rfl
  · simp only [mini, okOr, bind, StateT.bind, Except.bind, ha2, hb2, hd2, he2, pure, StateT.pure, Except.pure]
    rfl

end

section
variable {p : Nat} [Fact p.Prime]

theorem hash_twin (n : Nat) (k : List (ZMod p)) (b : List UInt8) (xl xr h : ZMod p)
    (hh : Mimc.hashBytes n b k = some (xl, xr, h)) :
    ∃ r1 r2 c1 c2, hashCircuit n k (some b) (CS.new true) = .ok (r1, c1) ∧
      hashCircuit n k none (CS.new false) = .ok (r2, c2) ∧ Twin c1 c2 ∧ c1.inputs = [1, h] := by
  obtain ⟨r1, r2, a1, a2, ha1, ha2, ta, ia⟩ := circuit_twin k (Twin.new (F := ZMod p)) xl xr
  obtain ⟨d1, d2, hd1, hd2, td, id, ld⟩ := ta.allocInput h (.error .assignmentMissing)
  refine ⟨.input a1.inputs.length, .input a1.inputs.length, d1, d2, ?_, ?_, td, by rw [id, ia]; rfl⟩
  · simp only [hashCircuit, Mimc.mimc, hh, okOr, bind, StateT.bind, Except.bind, ha1, hd1, pure, StateT.pure,
      Except.pure]
  · simp only [hashCircuit, Mimc.mimc, hh, okOr, bind, StateT.bind, Except.bind, ha2, hd2, pure, StateT.pure,
      Except.pure]

end

end Zkp.Cli
