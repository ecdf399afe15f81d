/- Property C113: all constraint systems record the same circuit. -/
import Verif.Model.Backends
import Mathlib.Algebra.Field.ZMod
import Mathlib.Tactic.NormNum.Prime

set_option linter.unusedSectionVars false
set_option linter.unusedSimpArgs false

namespace Zkp.Back

variable {F : Type} [Field F]

/-- A combination as a row of a matrix: coefficient and variable of every term. -/
def row (l : LC F) : List (F × Index) := l.map fun t => (t.2, t.1)

theorem pushConstraints_last (l : LC F) : ∀ (m : List (List (F × Index))) (r : List (F × Index)),
    pushConstraints l (m ++ [r]) m.length = m ++ [r ++ row l] := by
  induction l with
  | nil => intro m r; simp [pushConstraints, row]
  | cons t l ih =>
    intro m r
    have := ih m (r ++ [(t.2, t.1)])
    simp only [pushConstraints, List.foldl_cons] at this ⊢
    rw [show (m ++ [r]).modify m.length (· ++ [(t.2, t.1)]) = m ++ [r ++ [(t.2, t.1)]] from ?_, this]
    · simp [row]
    · clear this
      induction m with
      | nil => rfl
      | cons x m ih => simpa using ih

theorem pushConstraints_new (l : LC F) (m : List (List (F × Index))) (n : Nat) (h : n = m.length) :
    pushConstraints l (m ++ [[]]) n = m ++ [row l] := by
  subst h
  simpa using pushConstraints_last l m []

/-- The recordings of the generators. -/
structure SameOff (cs : CS F) (a : Assembly F) : Prop where
  proving : cs.proving = false
  inputs : a.numInputs = cs.inputs.length
  aux : a.numAux = cs.aux.length
  num : a.numConstraints = cs.constraints.length
  at' : a.at' = cs.constraints.map fun k => row k.a
  bt : a.bt = cs.constraints.map fun k => row k.b
  ct : a.ct = cs.constraints.map fun k => row k.c

theorem SameOff.alloc {cs : CS F} {a : Assembly F} (h : SameOff cs a) :
    SameOff { cs with aux := cs.aux ++ [0] } { a with numAux := a.numAux + 1 } :=
  ⟨h.proving, h.inputs, by simp [h.aux], h.num, h.at', h.bt, h.ct⟩

theorem SameOff.allocInput {cs : CS F} {a : Assembly F} (h : SameOff cs a) :
    SameOff { cs with inputs := cs.inputs ++ [0] } { a with numInputs := a.numInputs + 1 } :=
  ⟨h.proving, by simp [h.inputs], h.aux, h.num, h.at', h.bt, h.ct⟩

theorem SameOff.enforce {cs : CS F} {s : Assembly F} (h : SameOff cs s) (a b c : LC F) :
    SameOff { cs with constraints := cs.constraints ++ [⟨a, b, c⟩] } (assembly.enforce a b c s) := by
  have e1 := pushConstraints_new a s.at' s.numConstraints (by rw [h.num, h.at', List.length_map])
  have e2 := pushConstraints_new b s.bt s.numConstraints (by rw [h.num, h.bt, List.length_map])
  have e3 := pushConstraints_new c s.ct s.numConstraints (by rw [h.num, h.ct, List.length_map])
  refine ⟨h.proving, h.inputs, h.aux, ?_, ?_, ?_, ?_⟩
  · simp [assembly, h.num]
  · simp only [assembly, e1]; simp [h.at']
  · simp only [assembly, e2]; simp [h.bt]
  · simp only [assembly, e3]; simp [h.ct]

theorem SameOff.indexer {cs : CS F} {s : Assembly F} (h : SameOff cs s) (a b c : LC F) :
    SameOff { cs with constraints := cs.constraints ++ [⟨a, b, c⟩] } (indexer.enforce a b c s) := by
  refine ⟨h.proving, h.inputs, h.aux, ?_, ?_, ?_, ?_⟩
  · simp [Back.indexer, h.num]
  · simp [Back.indexer, h.at', makeRow, row]
  · simp [Back.indexer, h.bt, makeRow, row]
  · simp [Back.indexer, h.ct, makeRow, row]

/-- Two runs end alike: with the same error, or in related states. -/
def Alike {S T : Type} (R : S → T → Prop) : Except SynthesisError S → Except SynthesisError T → Prop
  | .ok s, .ok t => R s t
  | .error e, .error e' => e = e'
  | _, _ => False

theorem assembly_sim (q : Prog F) : ∀ (cs : CS F) (a : Assembly F), SameOff cs a →
    Alike (fun x y => SameOff x.2 y) (q.toSynth cs) (q.run assembly a) := by
  induction q with
  | done r =>
    intro cs a h
    cases r with
    | ok u => exact h
    | error e => simp [Prog.toSynth, Prog.run, Alike, failS]
  | alloc f k ih =>
    intro cs a h
    have := ih (.aux cs.aux.length) _ _ h.alloc
    simpa [Prog.toSynth, Prog.run, assembly, bind, StateT.bind, Except.bind, Zkp.alloc, h.proving, h.aux] using this
  | allocInput f k ih =>
    intro cs a h
    have := ih (.input cs.inputs.length) _ _ h.allocInput
    simpa [Prog.toSynth, Prog.run, assembly, bind, StateT.bind, Except.bind, Zkp.allocInput, h.proving,
      h.inputs] using this
  | enforce a b c k ih =>
    intro cs s h
    exact ih _ _ (h.enforce a b c)

theorem indexer_sim (q : Prog F) : ∀ (cs : CS F) (a : Assembly F), SameOff cs a →
    Alike (fun x y => SameOff x.2 y) (q.toSynth cs) (q.run indexer a) := by
  induction q with
  | done r =>
    intro cs a h
    cases r with
    | ok u => exact h
    | error e => simp [Prog.toSynth, Prog.run, Alike, failS]
  | alloc f k ih =>
    intro cs a h
    have := ih (.aux cs.aux.length) _ _ h.alloc
    simpa [Prog.toSynth, Prog.run, indexer, bind, StateT.bind, Except.bind, Zkp.alloc, h.proving, h.aux] using this
  | allocInput f k ih =>
    intro cs a h
    have := ih (.input cs.inputs.length) _ _ h.allocInput
    simpa [Prog.toSynth, Prog.run, indexer, bind, StateT.bind, Except.bind, Zkp.allocInput, h.proving,
      h.inputs] using this
  | enforce a b c k ih =>
    intro cs s h
    exact ih _ _ (h.indexer a b c)

/-- The recordings of the provers. -/
structure SameOn (cs : CS F) (p : Proving F) (n : Counting F) (m : MarlinProving F) : Prop where
  proving : cs.proving = true
  at' : p.at' = cs.constraints.map fun k => row k.a
  bt : p.bt = cs.constraints.map fun k => row k.b
  ct : p.ct = cs.constraints.map fun k => row k.c
  input : p.input = cs.inputs
  aux : p.aux = cs.aux
  ninput : n.input = cs.inputs
  naux : n.aux = cs.aux
  num : n.numConstraints = cs.constraints.length
  minput : m.input = cs.inputs
  maux : m.aux = cs.aux
  mnum : m.numConstraints = cs.constraints.length
  mi : m.numInputs = cs.inputs.length
  ma : m.numAux = cs.aux.length

theorem prover_sim (q : Prog F) : ∀ (cs : CS F) (p : Proving F) (n : Counting F) (m : MarlinProving F),
    SameOn cs p n m → ∃ r : Except SynthesisError Unit, (∀ e, r = .error e → q.toSynth cs = .error e ∧ q.run proving p = .error e ∧
        q.run counting n = .error e ∧ q.run marlinProving m = .error e) ∧
      (∀ u, r = .ok u → ∃ cs' p' n' m', q.toSynth cs = .ok ((), cs') ∧ q.run proving p = .ok p' ∧
        q.run counting n = .ok n' ∧ q.run marlinProving m = .ok m' ∧ SameOn cs' p' n' m') := by
  induction q with
  | done r =>
    intro cs p n m h
    refine ⟨r, ?_, ?_⟩
    · rintro e rfl; simp [Prog.toSynth, Prog.run, failS]
    · rintro u rfl; exact ⟨cs, p, n, m, rfl, rfl, rfl, rfl, h⟩
  | alloc f k ih =>
    intro cs p n m h
    cases f with
    | error e =>
      refine ⟨.error e, ?_, fun u hu => by cases hu⟩
      rintro e' he
      cases he
      simp [Prog.toSynth, Prog.run, bind, StateT.bind, Except.bind, Zkp.alloc, h.proving, proving, counting,
        marlinProving]
    | ok v =>
      have h' : SameOn { cs with aux := cs.aux ++ [v] } { p with aux := p.aux ++ [v] } { n with aux := n.aux ++ [v] }
          { m with aux := m.aux ++ [v], numAux := m.numAux + 1 } :=
        ⟨h.proving, h.at', h.bt, h.ct, h.input, by simp [h.aux], h.ninput, by simp [h.naux], h.num, h.minput,
          by simp [h.maux], h.mnum, h.mi, by simp [h.ma]⟩
      obtain ⟨r, h1, h2⟩ := ih (.aux cs.aux.length) _ _ _ _ h'
      refine ⟨r, fun e he => ?_, fun u hu => ?_⟩
      · obtain ⟨g1, g2, g3, g4⟩ := h1 e he
        refine ⟨?_, ?_, ?_, ?_⟩
        · simpa [Prog.toSynth, bind, StateT.bind, Except.bind, Zkp.alloc, h.proving] using g1
        · simpa [Prog.run, proving, h.aux] using g2
        · simpa [Prog.run, counting, h.naux] using g3
        · simpa [Prog.run, marlinProving, h.ma] using g4
      · obtain ⟨cs', p', n', m', g1, g2, g3, g4, g5⟩ := h2 u hu
        refine ⟨cs', p', n', m', ?_, ?_, ?_, ?_, g5⟩
        · simpa [Prog.toSynth, bind, StateT.bind, Except.bind, Zkp.alloc, h.proving] using g1
        · simpa [Prog.run, proving, h.aux] using g2
        · simpa [Prog.run, counting, h.naux] using g3
        · simpa [Prog.run, marlinProving, h.ma] using g4
  | allocInput f k ih =>
    intro cs p n m h
    cases f with
    | error e =>
      refine ⟨.error e, ?_, fun u hu => by cases hu⟩
      rintro e' he
      cases he
      simp [Prog.toSynth, Prog.run, bind, StateT.bind, Except.bind, Zkp.allocInput, h.proving, proving, counting,
        marlinProving]
    | ok v =>
      have h' : SameOn { cs with inputs := cs.inputs ++ [v] } { p with input := p.input ++ [v] }
          { n with input := n.input ++ [v] } { m with input := m.input ++ [v], numInputs := m.numInputs + 1 } :=
        ⟨h.proving, h.at', h.bt, h.ct, by simp [h.input], h.aux, by simp [h.ninput], h.naux, h.num, by simp [h.minput],
          h.maux, h.mnum, by simp [h.mi], h.ma⟩
      obtain ⟨r, h1, h2⟩ := ih (.input cs.inputs.length) _ _ _ _ h'
      refine ⟨r, fun e he => ?_, fun u hu => ?_⟩
      · obtain ⟨g1, g2, g3, g4⟩ := h1 e he
        refine ⟨?_, ?_, ?_, ?_⟩
        · simpa [Prog.toSynth, bind, StateT.bind, Except.bind, Zkp.allocInput, h.proving] using g1
        · simpa [Prog.run, proving, h.input] using g2
        · simpa [Prog.run, counting, h.ninput] using g3
        · simpa [Prog.run, marlinProving, h.mi] using g4
      · obtain ⟨cs', p', n', m', g1, g2, g3, g4, g5⟩ := h2 u hu
        refine ⟨cs', p', n', m', ?_, ?_, ?_, ?_, g5⟩
        · simpa [Prog.toSynth, bind, StateT.bind, Except.bind, Zkp.allocInput, h.proving] using g1
        · simpa [Prog.run, proving, h.input] using g2
        · simpa [Prog.run, counting, h.ninput] using g3
        · simpa [Prog.run, marlinProving, h.mi] using g4
  | enforce a b c k ih =>
    intro cs p n m h
    have l1 : p.at'.length = p.bt.length := by rw [h.at', h.bt, List.length_map, List.length_map]
    have l2 : p.at'.length = p.ct.length := by rw [h.at', h.ct, List.length_map, List.length_map]
    have h' : SameOn { cs with constraints := cs.constraints ++ [⟨a, b, c⟩] } (proving.enforce a b c p)
        (counting.enforce a b c n) (marlinProving.enforce a b c m) := by
      have e1 := pushConstraints_new a p.at' _ rfl
      have e2 := pushConstraints_new b p.bt _ l1
      have e3 := pushConstraints_new c p.ct _ l2
      refine ⟨h.proving, ?_, ?_, ?_, h.input, h.aux, h.ninput, h.naux, ?_, h.minput, h.maux, ?_, h.mi, h.ma⟩
      · simp only [proving, e1]; simp [h.at']
      · simp only [proving, e2]; simp [h.bt]
      · simp only [proving, e3]; simp [h.ct]
      · simp [counting, h.num]
      · simp [marlinProving, h.mnum]
    exact ih _ _ _ _ h'

/-- The run of a circuit on a system that starts with the constant one. -/
def whole {S : Type} (B : Backend F S) (init : Except SynthesisError S) (q : Prog F) : Except SynthesisError S :=
  match init with
  | .ok s => q.run B s
  | .error e => .error e

/-- C113, provers: on every circuit, the systems of the four provers (Groth16 and Bulletproofs share one)
and the one of the gadget model succeed together, or fail with the same error.  If they succeed, they hold the
same values in the same order and the same number of constraints, and the recorded rows are those of the
constraints of the gadget model. -/
theorem C113_provers (q : Prog F) :
    (∃ e, q.toSynth (CS.new true) = .error e ∧ whole proving provingInit q = .error e ∧
      whole counting countingInit q = .error e ∧ q.run marlinProving marlinProvingInit = .error e) ∨
    (∃ cs p n m, q.toSynth (CS.new true) = .ok ((), cs) ∧ whole proving provingInit q = .ok p ∧
      whole counting countingInit q = .ok n ∧ q.run marlinProving marlinProvingInit = .ok m ∧
      p.input = cs.inputs ∧ n.input = cs.inputs ∧ m.input = cs.inputs ∧
      p.aux = cs.aux ∧ n.aux = cs.aux ∧ m.aux = cs.aux ∧
      p.at' = cs.constraints.map (fun k => row k.a) ∧ p.bt = cs.constraints.map (fun k => row k.b) ∧
      p.ct = cs.constraints.map (fun k => row k.c) ∧
      n.numConstraints = cs.constraints.length ∧ m.numConstraints = cs.constraints.length ∧
      m.numInputs = cs.inputs.length ∧ m.numAux = cs.aux.length) := by
  have h0 : SameOn (CS.new true : CS F) ⟨[], [], [], [1], []⟩ ⟨0, [1], []⟩ marlinProvingInit :=
    ⟨rfl, rfl, rfl, rfl, rfl, rfl, rfl, rfl, rfl, rfl, rfl, rfl, rfl, rfl⟩
  obtain ⟨r, h1, h2⟩ := prover_sim q _ _ _ _ h0
  cases r with
  | error e =>
    obtain ⟨g1, g2, g3, g4⟩ := h1 e rfl
    exact Or.inl ⟨e, g1, g2, g3, g4⟩
  | ok u =>
    obtain ⟨cs, p, n, m, g1, g2, g3, g4, h⟩ := h2 u rfl
    exact Or.inr ⟨cs, p, n, m, g1, g2, g3, g4, h.input, h.ninput, h.minput, h.aux, h.naux, h.maux, h.at', h.bt, h.ct,
      h.num, h.mnum, h.mi, h.ma⟩

/-- C113, generators: the systems of the Groth16 key generator, of Spartan's instance and of Marlin's indexer
record the same matrices and sizes, those of the gadget model without values. -/
theorem C113_generators (q : Prog F) :
    (∃ e, q.toSynth (CS.new false) = .error e ∧ whole assembly assemblyInit q = .error e ∧
      q.run indexer indexerInit = .error e) ∨
    (∃ cs a, q.toSynth (CS.new false) = .ok ((), cs) ∧ whole assembly assemblyInit q = .ok a ∧
      q.run indexer indexerInit = .ok a ∧
      a.at' = cs.constraints.map (fun k => row k.a) ∧ a.bt = cs.constraints.map (fun k => row k.b) ∧
      a.ct = cs.constraints.map (fun k => row k.c) ∧ a.numConstraints = cs.constraints.length ∧
      a.numInputs = cs.inputs.length ∧ a.numAux = cs.aux.length) := by
  have h0 : SameOff (CS.new false : CS F) ⟨1, 0, 0, [], [], []⟩ := ⟨rfl, rfl, rfl, rfl, rfl, rfl, rfl⟩
  have h1 := assembly_sim q _ _ h0
  have h2 := indexer_sim q _ _ h0
  have e1 : whole assembly assemblyInit q = q.run assembly ⟨1, 0, 0, [], [], []⟩ := rfl
  have e2 : q.run indexer indexerInit = q.run indexer ⟨1, 0, 0, [], [], []⟩ := rfl
  rw [e1, e2]
  revert h1 h2
  cases q.toSynth (CS.new false) with
  | error e =>
    cases q.run assembly ⟨1, 0, 0, [], [], []⟩ with
    | error e' =>
      cases q.run indexer ⟨1, 0, 0, [], [], []⟩ with
      | error e'' =>
        intro h1 h2
        simp only [Alike] at h1 h2
        subst h1 h2
        exact Or.inl ⟨e, rfl, rfl, rfl⟩
      | ok _ => intro _ h2; exact h2.elim
    | ok _ => intro h1; exact h1.elim
  | ok cs =>
    cases q.run assembly ⟨1, 0, 0, [], [], []⟩ with
    | error e' => intro h1; exact h1.elim
    | ok a =>
      cases q.run indexer ⟨1, 0, 0, [], [], []⟩ with
      | error e'' => intro _ h2; exact h2.elim
      | ok a' =>
        intro h1 h2
        have ea : a' = a := by
          obtain ⟨-, i1, i2, i3, i4, i5, i6⟩ := h1
          obtain ⟨-, j1, j2, j3, j4, j5, j6⟩ := h2
          cases a; cases a'
          simp only at *
          subst i1 i2 i3 i4 i5 i6 j1 j2 j3 j4 j5 j6
          rfl
        subst ea
        exact Or.inr ⟨cs.2, a', rfl, rfl, rfl, h1.at', h1.bt, h1.ct, h1.num, h1.inputs, h1.aux⟩

theorem shape_sim (q : Prog F) : ∀ (c1 c2 c1' : CS F), c1.proving = true → c2.proving = false →
    c1.inputs.length = c2.inputs.length → c1.aux.length = c2.aux.length → c1.constraints = c2.constraints →
    q.toSynth c1 = .ok ((), c1') → ∃ c2', q.toSynth c2 = .ok ((), c2') ∧ c1'.constraints = c2'.constraints ∧
      c1'.inputs.length = c2'.inputs.length ∧ c1'.aux.length = c2'.aux.length := by
  induction q with
  | done r =>
    intro c1 c2 c1' h1 h2 hi ha hc h
    cases r with
    | error e => simp [Prog.toSynth, failS] at h
    | ok u =>
      simp only [Prog.toSynth, Except.ok.injEq, Prod.mk.injEq, true_and] at h
      subst h
      exact ⟨c2, rfl, hc, hi, ha⟩
  | alloc f k ih =>
    intro c1 c2 c1' h1 h2 hi ha hc h
    cases f with
    | error e => simp [Prog.toSynth, bind, StateT.bind, Except.bind, Zkp.alloc, h1] at h
    | ok v =>
      simp only [Prog.toSynth, bind, StateT.bind, Except.bind, Zkp.alloc, h1, if_true] at h
      obtain ⟨c2', g1, g2⟩ := ih _ { c1 with aux := c1.aux ++ [v] }
        { c2 with aux := c2.aux ++ [0] } c1' h1 h2 hi (by simp [ha]) hc (by simpa [h1] using h)
      refine ⟨c2', ?_, g2⟩
      rw [ha] at g1
      simpa [Prog.toSynth, bind, StateT.bind, Except.bind, Zkp.alloc, h2] using g1
  | allocInput f k ih =>
    intro c1 c2 c1' h1 h2 hi ha hc h
    cases f with
    | error e => simp [Prog.toSynth, bind, StateT.bind, Except.bind, Zkp.allocInput, h1] at h
    | ok v =>
      simp only [Prog.toSynth, bind, StateT.bind, Except.bind, Zkp.allocInput, h1, if_true] at h
      obtain ⟨c2', g1, g2⟩ := ih _ { c1 with inputs := c1.inputs ++ [v] }
        { c2 with inputs := c2.inputs ++ [0] } c1' h1 h2 (by simp [hi]) ha hc (by simpa [h1] using h)
      refine ⟨c2', ?_, g2⟩
      rw [hi] at g1
      simpa [Prog.toSynth, bind, StateT.bind, Except.bind, Zkp.allocInput, h2] using g1
  | enforce a b c k ih =>
    intro c1 c2 c1' h1 h2 hi ha hc h
    exact ih { c1 with constraints := c1.constraints ++ [⟨a, b, c⟩] } { c2 with constraints := c2.constraints ++ [⟨a, b, c⟩] } c1'
      h1 h2 hi ha (by simp [hc]) h

/-- C113, generator and prover: if the prover's run of a circuit succeeds, so does the generator's, and both
record the same three matrices; the prover has as many values as the generator counted. -/
theorem C113_agree (q : Prog F) (p : Proving F) (hp : whole proving provingInit q = .ok p) :
    ∃ a, whole assembly assemblyInit q = .ok a ∧ q.run indexer indexerInit = .ok a ∧
      a.at' = p.at' ∧ a.bt = p.bt ∧ a.ct = p.ct ∧ a.numConstraints = p.at'.length ∧
      a.numInputs = p.input.length ∧ a.numAux = p.aux.length := by
  rcases C113_provers q with ⟨e, -, h, -⟩ | ⟨cs, p', n, m, h1, h2, -, -, i1, -, -, i2, -, -, i3, i4, i5, -⟩
  · rw [hp] at h; cases h
  · rw [hp, Except.ok.injEq] at h2
    subst h2
    obtain ⟨c2, g1, g2, g3, g4⟩ := shape_sim q (CS.new true) (CS.new false) _ rfl rfl rfl rfl rfl h1
    rcases C113_generators q with ⟨e, h, -⟩ | ⟨c2', a, k1, k2, k3, j1, j2, j3, j4, j5, j6⟩
    · rw [g1] at h; cases h
    · rw [g1, Except.ok.injEq, Prod.mk.injEq] at k1
      obtain ⟨-, rfl⟩ := k1
      refine ⟨a, k2, k3, ?_, ?_, ?_, ?_, ?_, ?_⟩
      · rw [j1, i3, g2]
      · rw [j2, i4, g2]
      · rw [j3, i5, g2]
      · rw [j4, i3, List.length_map, g2]
      · rw [j5, i1, g3]
      · rw [j6, i2, g4]

local instance prime17Backends : Fact (Nat.Prime 17) := ⟨by norm_num⟩

/-- A circuit: two witnesses and an input, `x · (y + 2) = z`. -/
def sample : Prog (ZMod 17) :=
  .alloc (.ok 3) fun x => .alloc (.ok 4) fun y => .allocInput (.ok 1) fun z =>
    .enforce (LC.zero.addVar x) ((LC.zero.addVar y).addTerm 2 .one) (LC.zero.addVar z) (.done (.ok ()))

example : ∃ p, whole proving provingInit sample = .ok p ∧ p.input = [1, 1] ∧ p.aux = [3, 4] ∧
    p.at' = [[(1, .aux 0)]] ∧ p.bt = [[(2, .input 0), (1, .aux 1)]] ∧ p.ct = [[(1, .input 1)]] :=
  ⟨_, rfl, rfl, rfl, rfl, rfl, rfl⟩

/-- A circuit whose values are missing: the generators succeed, the provers report it. -/
example : (∃ a, whole assembly assemblyInit (.alloc (.error .assignmentMissing) fun _ => .done (.ok ()) : Prog (ZMod 17)) =
      .ok a ∧ a.numAux = 1) ∧
    whole proving provingInit (.alloc (.error .assignmentMissing) fun _ => .done (.ok ()) : Prog (ZMod 17)) =
      .error .assignmentMissing :=
  ⟨⟨_, rfl, rfl⟩, rfl⟩

end Zkp.Back
