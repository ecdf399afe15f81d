/- Property C37: Marlin's matrix preprocessing. -/
import Verif.Model.MarlinCs
import Verif.Spec.MarlinMatrix
import Verif.Spec.Cs
import Verif.Proof.F17
import Mathlib.Tactic.Ring

set_option linter.unusedSectionVars false
set_option linter.unusedSimpArgs false

namespace Zkp.Marlin

variable {F : Type} [Field F]

/-- The assignment to the circuit's variables read off a vector: first the inputs, then the private
variables. -/
def assign (numInputs : Nat) (z : Nat → F) : Index → F
  | .input i => z i
  | .aux i => z (numInputs + i)

/-- The full statement for a build with (`checked = true`) or without overflow checks: preprocessing every
circuit returns square matrices that are satisfied by exactly the assignments that satisfy the circuit
(the value of a padding variable does not matter). -/
def C37_statement (F : Type) [Field F] (checked : Bool) : Prop :=
  ∀ cs : CS F, ∃ A B C, (Ics.of cs).makeSquare.process checked = .ok (A, B, C) ∧
    C.length = (Ics.of cs).makeSquare.numInputs + (Ics.of cs).makeSquare.numWitness ∧
    ∀ z, MatSat A B C z ↔ CS.Sat (assign cs.inputs.length z) cs

/-! ### Proofs -/

theorem rowVal_sort (z : Nat → F) (row : List (F × Nat)) :
    rowVal z (if ascending row then row else row.mergeSort fun x y => decide (x.2 ≤ y.2)) = rowVal z row := by
  split
  · rfl
  · unfold rowVal
    exact ((List.mergeSort_perm row _).map _).sum_eq

theorem sortColumns_getD (m : Matrix F) (z : Nat → F) (i : Nat) :
    rowVal z ((sortColumns m).getD i []) = rowVal z (m.getD i []) := by
  unfold sortColumns
  rw [List.getD_eq_getElem?_getD, List.getElem?_map]
  cases h : m[i]? with
  | none => simp [List.getD_eq_getElem?_getD, h]
  | some row => simpa [List.getD_eq_getElem?_getD, h] using rowVal_sort z row

theorem matSat_cons (ra rb rc : List (F × Nat)) (A B C : Matrix F) (z : Nat → F) :
    MatSat (ra :: A) (rb :: B) (rc :: C) z ↔ rowVal z ra * rowVal z rb = rowVal z rc ∧ MatSat A B C z := by
  unfold MatSat
  simp only [List.length_cons, Nat.add_right_cancel_iff]
  constructor
  · rintro ⟨h1, h2, h3⟩
    exact ⟨by simpa using h3 0 (by omega), h1, h2, fun i hi => by simpa using h3 (i + 1) (by omega)⟩
  · rintro ⟨h0, h1, h2, h3⟩
    refine ⟨h1, h2, ?_⟩
    intro i hi
    match i with
    | 0 => simpa using h0
    | i + 1 => simpa using h3 i (by omega)

/-- Swapping rows between the first two matrices does not matter. -/
theorem balanceLoop_sat (checked : Bool) (z : Nat → F) : ∀ (A B C : Matrix F) (d : Bool) (x y : Nat)
    (A' B' : Matrix F), A.length = C.length → B.length = C.length →
    balanceLoop checked d x y A B = .ok (A', B') → (MatSat A' B' C z ↔ MatSat A B C z) := by
  intro A
  induction A with
  | nil =>
    intro B C d x y A' B' h1 h2 h
    have hB : B = [] := List.eq_nil_of_length_eq_zero (by rw [h2, ← h1]; rfl)
    subst hB
    cases d <;> (injection h with h; injection h with e1 e2; subst e1 e2; exact Iff.rfl)
  | cons ra A ih =>
    intro B C d x y A' B' h1 h2 h
    cases C with
    | nil => simp at h1
    | cons rc C =>
    cases B with
    | nil => simp at h2
    | cons rb B =>
    simp only [List.length_cons, Nat.add_right_cancel_iff] at h1 h2
    cases d with
    | true =>
      unfold balanceLoop at h
      cases e1 : usizeSub checked rb.length ra.length with
      | error e => rw [e1] at h; cases h
      | ok x1 =>
      cases e2 : usizeAdd checked x x1 with
      | error e => rw [e1] at h; simp only [bind, Except.bind, e2] at h; cases h
      | ok x2 =>
      cases e3 : usizeSub checked ra.length rb.length with
      | error e => rw [e1] at h; simp only [bind, Except.bind, e2, e3] at h; cases h
      | ok y1 =>
      cases e4 : usizeAdd checked y y1 with
      | error e => rw [e1] at h; simp only [bind, Except.bind, e2, e3, e4] at h; cases h
      | ok y2 =>
      cases e5 : balanceLoop checked (decide (x2 > y2)) x2 y2 A B with
      | error e => rw [e1] at h; simp only [bind, Except.bind, e2, e3, e4, e5] at h; cases h
      | ok r =>
      obtain ⟨A1, B1⟩ := r
      rw [e1] at h
      simp only [bind, Except.bind, e2, e3, e4, e5] at h
      injection h with h
      injection h with g1 g2
      subst g1 g2
      rw [matSat_cons, matSat_cons, ih B C _ _ _ _ _ h1 h2 e5, mul_comm]
    | false =>
      unfold balanceLoop at h
      cases e5 : balanceLoop checked false x y A B with
      | error e => simp only [bind, Except.bind, e5] at h; cases h
      | ok r =>
      obtain ⟨A1, B1⟩ := r
      simp only [bind, Except.bind, e5] at h
      injection h with h
      injection h with g1 g2
      subst g1 g2
      rw [matSat_cons, matSat_cons, ih B C _ _ _ _ _ h1 h2 e5]

theorem usizeSub_unchecked (x y : Nat) : ∃ z, usizeSub false x y = .ok z := by
  unfold usizeSub; split
  · exact ⟨_, rfl⟩
  · exact ⟨_, by simp; rfl⟩

theorem usizeAdd_unchecked (x y : Nat) : ∃ z, usizeAdd false x y = .ok z := by
  unfold usizeAdd; split
  · exact ⟨_, rfl⟩
  · exact ⟨_, by simp; rfl⟩

theorem balanceLoop_unchecked : ∀ (A B : Matrix F) (d : Bool) (x y : Nat),
    ∃ A' B', balanceLoop false d x y A B = .ok (A', B') := by
  intro A
  induction A with
  | nil => intro B d x y; cases d <;> exact ⟨_, _, rfl⟩
  | cons ra A ih =>
    intro B d x y
    cases B with
    | nil => cases d <;> exact ⟨_, _, rfl⟩
    | cons rb B =>
      cases d with
      | true =>
        obtain ⟨x1, e1⟩ := usizeSub_unchecked rb.length ra.length
        obtain ⟨x2, e2⟩ := usizeAdd_unchecked x x1
        obtain ⟨y1, e3⟩ := usizeSub_unchecked ra.length rb.length
        obtain ⟨y2, e4⟩ := usizeAdd_unchecked y y1
        obtain ⟨A1, B1, e5⟩ := ih B (decide (x2 > y2)) x2 y2
        refine ⟨rb :: A1, ra :: B1, ?_⟩
        unfold balanceLoop
        simp only [bind, Except.bind, e1, e2, e3, e4, e5]
      | false =>
        obtain ⟨A1, B1, e5⟩ := ih B false x y
        refine ⟨ra :: A1, rb :: B1, ?_⟩
        unfold balanceLoop
        simp only [bind, Except.bind, e5]

theorem makeRow_val (n : Nat) (z : Nat → F) (l : LC F) :
    rowVal z ((makeRow l).map fun t => (t.1, column n t.2)) = l.eval (assign n z) := by
  unfold rowVal makeRow LC.eval
  rw [List.map_map, List.map_map]
  congr 1
  apply List.map_congr_left
  rintro ⟨v, c⟩ _
  cases v <;> simp [assign, column, Nat.add_comm]

theorem matSat_reindex (n : Nat) (z : Nat → F) (ks : List (R1C F)) (pad : Nat) :
    MatSat (reindex n (ks.map (fun k => makeRow k.a) ++ List.replicate pad []))
      (reindex n (ks.map (fun k => makeRow k.b) ++ List.replicate pad []))
      (reindex n (ks.map (fun k => makeRow k.c) ++ List.replicate pad [])) z ↔
      ∀ k ∈ ks, k.Holds (assign n z) := by
  induction ks with
  | nil =>
    simp only [List.map_nil, List.nil_append, List.not_mem_nil, false_imp_iff, implies_true, iff_true]
    refine ⟨rfl, rfl, fun i hi => ?_⟩
    have : (reindex n (List.replicate pad ([] : List (F × Index)))).getD i [] = [] := by
      simp only [reindex, List.map_replicate, List.map_nil]
      rw [List.getD_eq_getElem?_getD, List.getElem?_replicate]
      split <;> rfl
    rw [this]; simp [rowVal]
  | cons k ks ih =>
    simp only [List.map_cons, List.cons_append, List.forall_mem_cons]
    unfold reindex at ih ⊢
    rw [List.map_cons, List.map_cons, List.map_cons, matSat_cons, ih, makeRow_val, makeRow_val, makeRow_val]
    exact Iff.rfl

theorem makeSquare_sat (cs : CS F) (z : Nat → F) :
    MatSat (reindex (Ics.of cs).makeSquare.numInputs (Ics.of cs).makeSquare.a)
      (reindex (Ics.of cs).makeSquare.numInputs (Ics.of cs).makeSquare.b)
      (reindex (Ics.of cs).makeSquare.numInputs (Ics.of cs).makeSquare.c) z ↔
      CS.Sat (assign cs.inputs.length z) cs := by
  unfold Ics.makeSquare
  dsimp only
  split
  · have := matSat_reindex cs.inputs.length z cs.constraints 0
    simp only [List.replicate_zero, List.append_nil] at this
    exact this
  · exact matSat_reindex cs.inputs.length z cs.constraints _

theorem matSat_congr {A B C A' B' C' : Matrix F} {z : Nat → F} (hA : A'.length = A.length)
    (hB : B'.length = B.length) (hC : C'.length = C.length)
    (eA : ∀ i, rowVal z (A'.getD i []) = rowVal z (A.getD i []))
    (eB : ∀ i, rowVal z (B'.getD i []) = rowVal z (B.getD i []))
    (eC : ∀ i, rowVal z (C'.getD i []) = rowVal z (C.getD i [])) :
    MatSat A' B' C' z ↔ MatSat A B C z := by
  unfold MatSat
  rw [hA, hB, hC]
  simp only [eA, eB, eC]

theorem makeSquare_length (cs : CS F) :
    (Ics.of cs).makeSquare.a.length = (Ics.of cs).makeSquare.c.length ∧
    (Ics.of cs).makeSquare.b.length = (Ics.of cs).makeSquare.c.length ∧
    (Ics.of cs).makeSquare.c.length = (Ics.of cs).makeSquare.numInputs + (Ics.of cs).makeSquare.numWitness := by
  unfold Ics.makeSquare
  dsimp only
  split
  · rename_i h
    simp only [Ics.of, List.length_map] at h
    simp only [Ics.of, List.length_map, true_and]
    omega
  · rename_i h
    simp only [Ics.of, List.length_map] at h
    simp only [Ics.of, List.length_map, List.length_append, List.length_replicate, true_and]
    omega

/-- C37 for either build: whatever preprocessing returns is square and has the same satisfying
assignments.  Missing from the full statement: that it returns at all with overflow checks, which is
false (`C37_violated`). -/
theorem C37_partial (checked : Bool) (cs : CS F) {A B C : Matrix F}
    (h : (Ics.of cs).makeSquare.process checked = .ok (A, B, C)) :
    C.length = (Ics.of cs).makeSquare.numInputs + (Ics.of cs).makeSquare.numWitness ∧
    ∀ z, MatSat A B C z ↔ CS.Sat (assign cs.inputs.length z) cs := by
  obtain ⟨l1, l2, l3⟩ := makeSquare_length cs
  unfold Ics.process balance at h
  cases e : balanceLoop checked
      (decide (density (reindex (Ics.of cs).makeSquare.numInputs (Ics.of cs).makeSquare.a) >
        density (reindex (Ics.of cs).makeSquare.numInputs (Ics.of cs).makeSquare.b)))
      (density (reindex (Ics.of cs).makeSquare.numInputs (Ics.of cs).makeSquare.a))
      (density (reindex (Ics.of cs).makeSquare.numInputs (Ics.of cs).makeSquare.b))
      (reindex (Ics.of cs).makeSquare.numInputs (Ics.of cs).makeSquare.a)
      (reindex (Ics.of cs).makeSquare.numInputs (Ics.of cs).makeSquare.b) with
  | error e' => rw [e] at h; cases h
  | ok r =>
    obtain ⟨A1, B1⟩ := r
    rw [e] at h
    injection h with h
    injection h with g1 h
    injection h with g2 g3
    dsimp only at g1 g2
    subst g1 g2 g3
    refine ⟨by simp [sortColumns, reindex, l3], ?_⟩
    intro z
    rw [← makeSquare_sat, ← balanceLoop_sat checked z _ _ _ _ _ _ _ _ (by simpa [reindex] using l1)
      (by simpa [reindex] using l2) e]
    exact matSat_congr (by simp [sortColumns]) (by simp [sortColumns]) (by simp [sortColumns])
      (sortColumns_getD _ z) (sortColumns_getD _ z) (sortColumns_getD _ z)

/-- C37 in full for builds without overflow checks. -/
theorem C37_release : C37_statement F false := by
  intro cs
  obtain ⟨A, B, h⟩ := balanceLoop_unchecked
    (reindex (Ics.of cs).makeSquare.numInputs (Ics.of cs).makeSquare.a)
    (reindex (Ics.of cs).makeSquare.numInputs (Ics.of cs).makeSquare.b)
    (decide (density (reindex (Ics.of cs).makeSquare.numInputs (Ics.of cs).makeSquare.a) >
      density (reindex (Ics.of cs).makeSquare.numInputs (Ics.of cs).makeSquare.b)))
    (density (reindex (Ics.of cs).makeSquare.numInputs (Ics.of cs).makeSquare.a))
    (density (reindex (Ics.of cs).makeSquare.numInputs (Ics.of cs).makeSquare.b))
  have hp : (Ics.of cs).makeSquare.process false = .ok (sortColumns A, sortColumns B,
      sortColumns (reindex (Ics.of cs).makeSquare.numInputs (Ics.of cs).makeSquare.c)) := by
    unfold Ics.process balance
    rw [h]; rfl
  exact ⟨_, _, _, hp, C37_partial false cs hp⟩

/-- The circuit `(x + y)·1 = z` with one constraint: one row of A is longer than the row of B. -/
def sumCircuit : CS F17 :=
  ⟨true, [1, 5], [3, 2], [⟨[(.aux 0, 1), (.aux 1, 1)], [(.input 0, 1)], [(.input 1, 1)]⟩]⟩

/-- The circuit of the example is satisfied by its assignment, and so are its matrices. -/
example : ∃ A B C, (Ics.of sumCircuit).makeSquare.process false = .ok (A, B, C) ∧ C.length = 4 ∧
    MatSat A B C fun i => ([1, 5, 3, 2] : List F17).getD i 0 := by
  obtain ⟨A, B, C, h1, h2, h3⟩ := C37_release (F := F17) sumCircuit
  refine ⟨A, B, C, h1, h2, (h3 _).mpr ?_⟩
  intro k hk
  simp only [sumCircuit, List.mem_singleton] at hk
  subst hk
  unfold R1C.Holds
  decide

/-- With overflow checks indexing aborts as soon as a swap exchanges rows of different lengths: here for
a circuit with one addition constraint. -/
theorem C37_violated : ¬ C37_statement F17 true := by
  intro h
  obtain ⟨A, B, C, h1, -⟩ := h sumCircuit
  have : (Ics.of sumCircuit).makeSquare.process true = .error .panic := by rfl
  rw [this] at h1
  cases h1

/-- In general: with overflow checks preprocessing aborts whenever A has more entries than B and their
first rows have different lengths. -/
theorem C37_aborts (A B : Matrix F) (ra rb : List (F × Nat)) (hd : density (ra :: A) > density (rb :: B))
    (hl : ra.length ≠ rb.length) : balance true (ra :: A) (rb :: B) = .error .panic := by
  unfold balance
  rw [decide_eq_true hd]
  unfold balanceLoop
  by_cases h : ra.length ≤ rb.length
  · have e1 : usizeSub true rb.length ra.length = .ok (rb.length - ra.length) := by
      unfold usizeSub; rw [if_pos h]
    have e3 : usizeSub true ra.length rb.length = .error .panic := by
      unfold usizeSub; rw [if_neg (by omega)]; rfl
    cases e2 : usizeAdd true (density (ra :: A)) (rb.length - ra.length) with
    | ok x => simp only [bind, Except.bind, e1, e2, e3]
    | error e =>
      have : e = .panic := by
        unfold usizeAdd at e2
        split at e2
        · cases e2
        · simp only [if_true] at e2; injection e2 with e2; exact e2.symm
      subst this
      simp only [bind, Except.bind, e1, e2]
  · have e1 : usizeSub true rb.length ra.length = .error .panic := by
      unfold usizeSub; rw [if_neg h]; rfl
    simp only [bind, Except.bind, e1]

example := C37_aborts (F := F17) [] [] [(1, 2), (1, 3)] [(1, 0)] (by decide) (by decide)

/-- With overflow checks preprocessing returns if A has at most as many entries as B. -/
theorem C37_no_swap (checked : Bool) (A B : Matrix F) (hd : density A ≤ density B) :
    balance checked A B = .ok (A, B) := by
  unfold balance
  rw [decide_eq_false (by omega)]
  generalize density A = x
  generalize density B = y
  clear hd
  induction A generalizing B with
  | nil => rfl
  | cons ra A ih =>
    cases B with
    | nil => rfl
    | cons rb B =>
      unfold balanceLoop
      rw [ih B]; rfl

example := C37_no_swap (F := F17) true [[(1, 0)]] [[(1, 2), (1, 3)]] (by decide)

theorem balanceLoop_panics (A B : Matrix F) (hl : A.length = B.length) (hne : density A ≠ density B) :
    ∀ x y : Nat, x > y → balanceLoop true true x y A B = .error .panic := by
  induction A generalizing B with
  | nil =>
    cases B with
    | nil => exact absurd rfl hne
    | cons _ _ => simp at hl
  | cons ra A ih =>
    cases B with
    | nil => simp at hl
    | cons rb B =>
      intro x y hxy
      have pan : ∀ {a b : Nat} {e}, usizeAdd true a b = .error e → e = .panic := by
        intro a b e h
        unfold usizeAdd at h
        split at h
        · cases h
        · simp only [if_true] at h; injection h with h; exact h.symm
      unfold balanceLoop
      by_cases h : rb.length = ra.length
      · have e1 : usizeSub true rb.length ra.length = .ok 0 := by unfold usizeSub; rw [if_pos (by omega), h, Nat.sub_self]
        have e2 : usizeSub true ra.length rb.length = .ok 0 := by unfold usizeSub; rw [if_pos (by omega), h, Nat.sub_self]
        cases e3 : usizeAdd true x 0 with
        | error e => obtain rfl := pan e3; simp only [bind, Except.bind, e1, e3]
        | ok x' =>
          cases e4 : usizeAdd true y 0 with
          | error e => obtain rfl := pan e4; simp only [bind, Except.bind, e1, e2, e3, e4]
          | ok y' =>
            have hx : x' = x := by
              unfold usizeAdd at e3
              split at e3
              · exact (Except.ok.inj e3).symm
              · simp at e3
            have hy : y' = y := by
              unfold usizeAdd at e4
              split at e4
              · exact (Except.ok.inj e4).symm
              · simp at e4
            subst hx hy
            have hr := ih B (by simpa using hl) (by
              intro hc; apply hne
              unfold density at hc ⊢
              simp only [List.map_cons, List.sum_cons]; omega) x' y' hxy
            simp only [bind, Except.bind, e1, e2, e3, e4, decide_eq_true hxy, hr]
      · by_cases h' : ra.length ≤ rb.length
        · have e1 : usizeSub true rb.length ra.length = .ok (rb.length - ra.length) := by
            unfold usizeSub; rw [if_pos h']
          have e3 : usizeSub true ra.length rb.length = .error .panic := by
            unfold usizeSub; rw [if_neg (by omega)]; rfl
          cases e2 : usizeAdd true x (rb.length - ra.length) with
          | ok x => simp only [bind, Except.bind, e1, e2, e3]
          | error e => obtain rfl := pan e2; simp only [bind, Except.bind, e1, e2]
        · have e1 : usizeSub true rb.length ra.length = .error .panic := by
            unfold usizeSub; rw [if_neg h']; rfl
          simp only [bind, Except.bind, e1]

/-- With overflow checks balancing never exchanges rows of different lengths: it leaves the matrices alone if A has at
most as many entries as B, and aborts in every other case. -/
theorem C37_balance (A B : Matrix F) (hl : A.length = B.length) :
    balance true A B = if density A ≤ density B then .ok (A, B) else .error .panic := by
  split
  · next h => exact C37_no_swap true A B h
  · next h =>
    unfold balance
    rw [decide_eq_true (by omega)]
    exact balanceLoop_panics A B hl (by omega) _ _ (by omega)

example : balance true ([[(1, 0)], [(1, 2), (1, 3)]] : Matrix F17) [[(1, 1)], [(1, 0)]] = .error .panic :=
  C37_balance _ _ rfl

/-- With overflow checks a circuit is preprocessed exactly if the left factors of its constraints have at most as many
terms as the right factors. -/
theorem C37_exact (cs : CS F) : (∃ out, (Ics.of cs).makeSquare.process true = .ok out) ↔
    (cs.constraints.map fun k => k.a.length).sum ≤ (cs.constraints.map fun k => k.b.length).sum := by
  obtain ⟨l1, l2, -⟩ := makeSquare_length cs
  have hz : ∀ m : Nat, ((List.replicate m ([] : List (F × Nat))).map List.length).sum = 0 := by intro m; simp
  have hd : density (reindex (Ics.of cs).makeSquare.numInputs (Ics.of cs).makeSquare.a) =
        (cs.constraints.map fun k => k.a.length).sum ∧
      density (reindex (Ics.of cs).makeSquare.numInputs (Ics.of cs).makeSquare.b) =
        (cs.constraints.map fun k => k.b.length).sum := by
    unfold density reindex Ics.makeSquare
    dsimp only
    split <;> simp [Ics.of, makeRow, Function.comp_def]
  unfold Ics.process
  rw [C37_balance _ _ (by unfold reindex; simp only [List.length_map]; omega), hd.1, hd.2]
  split
  · next h => exact ⟨fun _ => h, fun _ => ⟨_, rfl⟩⟩
  · next h =>
    constructor
    · rintro ⟨_, hc⟩; cases hc
    · intro hc; exact absurd hc h

example : ¬ ∃ out, (Ics.of sumCircuit).makeSquare.process true = .ok out := by
  rw [C37_exact sumCircuit]; decide

/-- The prover pads to the same shape as the indexer: same numbers of inputs, private variables and
constraints, and the values of the circuit's own variables are kept. -/
theorem C37_prover_shape (cs : CS F) :
    (proverSquare cs).1 = cs.inputs ∧ cs.aux <+: (proverSquare cs).2.1 ∧
    (proverSquare cs).2.1.length = (Ics.of cs).makeSquare.numWitness ∧
    (proverSquare cs).2.2 = (Ics.of cs).makeSquare.c.length := by
  unfold proverSquare Ics.makeSquare
  dsimp only [Ics.of]
  simp only [List.length_map]
  split
  · refine ⟨rfl, List.prefix_append _ _, ?_, ?_⟩ <;> simp
  · refine ⟨rfl, List.prefix_refl _, ?_, ?_⟩ <;> simp

example := C37_prover_shape sumCircuit

end Zkp.Marlin
