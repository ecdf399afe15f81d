/- C120: what the challenges of Bulletproofs are bound to. -/
import Verif.Props.Bulletproofs

set_option linter.unusedSectionVars false
set_option linter.unusedSimpArgs false

namespace Zkp

open Bp

variable {F : Type} [Field F] [DecidableEq F] {G : Type} [AddCommGroup G] [Module F G] [DecidableEq G]

/-! ### The matrices are only hashed -/

/-- Replaces the three matrices in a message. -/
def swapMats (L R O : List (List F)) : Msg F G → Msg F G
  | .mat l m => .mat l (if l = "cL" then L else if l = "cR" then R else if l = "cO" then O else m)
  | m => m

theorem ippChallenges_map (ch : Oracle F G) (f : Msg F G → Msg F G) (hpt : ∀ l p, f (.pt l p) = .pt l p)
    (hch : ∀ l, f (.chal l) = .chal l) : ∀ (Ls Rs : List G) (tr : Transcript F G),
    ippChallenges (fun t => ch (t.map f)) tr Ls Rs = ippChallenges ch (tr.map f) Ls Rs
  | [], _, _ => by simp [ippChallenges]
  | _ :: _, [], _ => by simp [ippChallenges]
  | L :: Ls, R :: Rs, tr => by
    simp only [ippChallenges]
    rw [ippChallenges_map ch f hpt hch Ls Rs]
    simp only [List.map_append, List.map_cons, List.map_nil, hpt, hch]

theorem ippVerify_map (ch : Oracle F G) (L R O : List (List F)) (tr : Transcript F G) (g h : List G) (u P : G)
    (proof : IppProof F G) :
    ippVerify (fun t => ch (t.map (swapMats L R O))) tr g h u P proof =
      ippVerify ch (tr.map (swapMats L R O)) g h u P proof := by
  unfold ippVerify
  split
  · rfl
  · simp only
    rw [ippChallenges_map ch _ (fun _ _ => rfl) (fun _ => rfl)]
    simp only [ippStart, List.map_append, List.map_cons, List.map_nil, swapMats]

/-- The verifier uses the matrices of the circuit only for its challenges. -/
theorem C120_swap (ch : Oracle F G) (gens : Generators G) (p : Bp.Proof F G) (circuit : R1csCircuit F)
    (L R O : List (List F)) (inputs : List F) :
    verifyProof ch gens p { circuit with CL := L, CR := R, CO := O } inputs =
      verifyProof (fun t => ch (t.map (swapMats L R O))) gens p circuit inputs := by
  have hs : (startTr gens circuit (1 :: inputs) p.A_I p.A_O p.A_W p.S).map (swapMats L R O) =
      startTr gens { circuit with CL := L, CR := R, CO := O } (1 :: inputs) p.A_I p.A_O p.A_W p.S := by
    simp [startTr, swapMats]
  have ht : (tTr p : Transcript F G).map (swapMats L R O) = tTr p := by simp [tTr, swapMats]
  have hx : (xTr p : Transcript F G).map (swapMats L R O) = xTr p := by simp [xTr, swapMats]
  have hc : ∀ l, ([.chal l] : Transcript F G).map (swapMats L R O) = [.chal l] := fun _ => rfl
  unfold verifyProof
  simp only [ippVerify_map, List.map_append, hs, ht, hx, hc]
  rfl

theorem prove_t_x {ch : Oracle F G} {gens : Generators G} {circuit : R1csCircuit F} {input : Assignment F}
    {rnd : Rand F} {p : Bp.Proof F G} (h : prove ch gens circuit input rnd = some p) :
    p.t_x = innerProduct p.l_x p.r_x := by
  unfold prove at h
  simp only at h
  split at h
  · cases h
  split at h
  · cases h
  split at h
  · cases h
  rw [Option.map_eq_some_iff] at h
  obtain ⟨ipp, -, rfl⟩ := h
  rfl

/-- C120 is violated: for every circuit `cs` with a satisfying assignment and **any** matrices there is a proof that the
verifier accepts for the circuit with these matrices in the transcript and the maps of `cs`.  (The proof also passes
the check that is missing for C34, so this is another gap.) -/
theorem C120_foreign (ch : Oracle F G) (hch : ∀ t, ch t ≠ 0) (cs : CS F) (publicInputs : List F)
    (hone : cs.inputs = 1 :: publicInputs) (hc : cs.constraints ≠ []) (hr : Groth16.inRange cs = true)
    (hnr : ∀ k ∈ cs.constraints, k.a.NoRepeat ∧ k.b.NoRepeat ∧ k.c.NoRepeat) (hsat : cs.Sat cs.witness)
    (gv hv : List G) (g h u : G)
    (hgl : gv.length = nextPow2 (max cs.constraints.length cs.aux.length))
    (hhl : hv.length = nextPow2 (max cs.constraints.length cs.aux.length)) (L R O : List (List F)) :
    ∃ p : Bp.Proof F G, p.t_x = innerProduct p.l_x p.r_x ∧
      verifyProof ch (gensOf cs gv hv g h u) p { toCircuit cs with CL := L, CR := R, CO := O } publicInputs =
        some true := by
  let z := List.replicate (max cs.constraints.length cs.aux.length) (0 : F)
  let rnd : Rand F := ⟨z, z, 0, 0, 0, 0, 0, 0, 0, 0, 0, 0, 0, 0⟩
  obtain ⟨⟨gens, circuit, p⟩, hp⟩ := bulletproofs_prover_succeeds (fun t => ch (t.map (swapMats L R O)))
    (fun t => hch _) cs hc hr gv hv g h u rnd hgl hhl
  obtain ⟨rfl, rfl, hv⟩ := bulletproofs_complete _ cs publicInputs hone hnr hsat gv hv g h u rnd hgl hhl
    (by simp [rnd, z]) (by simp [rnd, z]) gens circuit p hp
  refine ⟨p, ?_, ?_⟩
  · unfold createProof at hp
    split at hp
    · cases hp
    simp only at hp
    split at hp
    · cases hp
    rw [Option.map_eq_some_iff] at hp
    obtain ⟨p', hp', he⟩ := hp
    simp only [Prod.mk.injEq] at he
    obtain ⟨-, -, rfl⟩ := he
    exact prove_t_x hp'
  · rw [C120_swap]
    exact hv

/-- The circuit `1 · 1 = 1`. -/
def oneCircuit : CS F := ⟨true, [1], [], [⟨[(.input 0, 1)], [(.input 0, 1)], [(.input 0, 1)]⟩]⟩

/-- C120 is violated, concretely: the transcript binds the matrices of the circuit `1 · 1 = 0`, which cannot be
satisfied, and the verifier checks the circuit `1 · 1 = 1`. -/
theorem C120_violated (ch : Oracle F G) (hch : ∀ t, ch t ≠ 0) (g1 h1 g h u : G) :
    (¬ ∃ w : Index → F, w .one = 1 ∧ (impossible : CS F).Sat w) ∧
    ∃ (circuit : R1csCircuit F) (p : Bp.Proof F G), circuit.CL = (toCircuit (impossible : CS F)).CL ∧
      circuit.CR = (toCircuit (impossible : CS F)).CR ∧ circuit.CO = (toCircuit (impossible : CS F)).CO ∧
      circuit.CO_T ≠ (toCircuit (impossible : CS F)).CO_T ∧ p.t_x = innerProduct p.l_x p.r_x ∧
      verifyProof ch (gensOf (impossible : CS F) [g1] [h1] g h u) p circuit [] = some true := by
  refine ⟨?_, ?_⟩
  · rintro ⟨w, h1, h2⟩
    have := h2 _ (List.mem_singleton.mpr rfl)
    have h1 : w (.input 0) = 1 := h1
    simp [R1C.Holds, LC.eval, h1] at this
  · have hsat : (oneCircuit : CS F).Sat (oneCircuit : CS F).witness := by
      intro k hk
      have : k = ⟨[(.input 0, 1)], [(.input 0, 1)], [(.input 0, 1)]⟩ := by simpa [oneCircuit] using hk
      subst this
      simp [R1C.Holds, LC.eval, CS.witness, oneCircuit]
    have hl : nextPow2 (max (oneCircuit : CS F).constraints.length (oneCircuit : CS F).aux.length) = 1 := by
      simp [oneCircuit, nextPow2]
    obtain ⟨p, h1, h2⟩ := C120_foreign ch hch (oneCircuit : CS F) [] rfl (by simp [oneCircuit])
      (by simp [Groth16.inRange, oneCircuit]) (by
        intro k hk
        have : k = ⟨[(.input 0, 1)], [(.input 0, 1)], [(.input 0, 1)]⟩ := by simpa [oneCircuit] using hk
        subst this
        simp [LC.NoRepeat]) hsat [g1] [h1] g h u (by rw [hl]; rfl) (by rw [hl]; rfl)
      (toCircuit (impossible : CS F)).CL (toCircuit (impossible : CS F)).CR (toCircuit (impossible : CS F)).CO
    refine ⟨⟨(toCircuit (impossible : CS F)).CL, (toCircuit (impossible : CS F)).CR,
      (toCircuit (impossible : CS F)).CO, (toCircuit (oneCircuit : CS F)).CL_T, (toCircuit (oneCircuit : CS F)).CR_T,
      (toCircuit (oneCircuit : CS F)).CO_T⟩, p, rfl, rfl, rfl, ?_, h1, h2⟩
    intro he
    have := congrFun he (0, 0)
    simp [toCircuit, oneCircuit, impossible, matrixToMap, denseRow, Groth16.pos] at this

/-! ### Everything else is bound -/

/-- The bytes of a message, up to the encoding of single elements: matrices are written row after row without
lengths (`to_bytes!` of a vector of vectors). -/
def flatMsg : Msg F G → String × List Nat × List F × List G
  | .u64 l n => (l, [n], [], [])
  | .fr l x => (l, [], [x], [])
  | .frs l xs => (l, [], xs, [])
  | .mat l m => (l, [], m.flatten, [])
  | .pt l p => (l, [], [], [p])
  | .pts l ps => (l, [], [], ps)
  | .chal l => (l, [], [], [])

/-- The transcript at the challenge `x_1`. -/
def fullTr (gens : Generators G) (circuit : R1csCircuit F) (inputs : List F) (p : Bp.Proof F G) : Transcript F G :=
  startTr gens circuit (1 :: inputs) p.A_I p.A_O p.A_W p.S ++ [.chal "y"] ++ [.chal "z"] ++ tTr p ++ [.chal "x"] ++
    xTr p ++ [.chal "x_1"]

/-- The matrices have the announced sizes. -/
def Shaped (gens : Generators G) (m : List (List F)) : Prop :=
  m.length = gens.n ∧ ∀ r ∈ m, r.length = gens.k + gens.n_w

theorem flatten_inj {α : Type} (c : Nat) : ∀ {m m' : List (List α)}, m.length = m'.length → (∀ r ∈ m, r.length = c) →
    (∀ r ∈ m', r.length = c) → m.flatten = m'.flatten → m = m'
  | [], [], _, _, _, _ => rfl
  | r :: m, r' :: m', hl, h, h', he => by
    simp only [List.flatten_cons] at he
    have hr : r.length = r'.length := by
      rw [h r List.mem_cons_self, h' r' List.mem_cons_self]
    obtain ⟨rfl, e⟩ := List.append_inj he hr
    rw [flatten_inj c (by simpa using hl) (fun r hr => h r (List.mem_cons_of_mem _ hr))
      (fun r hr => h' r (List.mem_cons_of_mem _ hr)) e]

/-- C120, the part that holds: equal bytes at the last challenge mean the same sizes, generators, matrices, public
inputs and messages of the proof.

Missing for the full statement: the maps of the circuit, which are what the verifier checks, are not hashed and not
compared with the matrices, see `C120_violated`. -/
theorem C120_partial {gens gens' : Generators G} {circuit circuit' : R1csCircuit F} {inputs inputs' : List F}
    {p p' : Bp.Proof F G}
    (hL : Shaped gens circuit.CL) (hR : Shaped gens circuit.CR) (hO : Shaped gens circuit.CO)
    (hL' : Shaped gens' circuit'.CL) (hR' : Shaped gens' circuit'.CR) (hO' : Shaped gens' circuit'.CO)
    (h : (fullTr gens circuit inputs p).map flatMsg = (fullTr gens' circuit' inputs' p').map flatMsg) :
    gens = gens' ∧ circuit.CL = circuit'.CL ∧ circuit.CR = circuit'.CR ∧ circuit.CO = circuit'.CO ∧
      inputs = inputs' ∧ p' = { p with IPP := p'.IPP, IPP_P := p'.IPP_P } := by
  obtain ⟨gv, hv, g, h1, u, n, N, k, nw⟩ := gens
  obtain ⟨gv', hv', g', h1', u', n', N', k', nw'⟩ := gens'
  obtain ⟨L, R, O, _, _, _⟩ := circuit
  obtain ⟨L', R', O', _, _, _⟩ := circuit'
  cases p
  cases p'
  simp only [fullTr, startTr, tTr, xTr, flatMsg, List.map_append, List.map_cons, List.map_nil, List.cons_append,
    List.nil_append, List.cons.injEq, Prod.mk.injEq, true_and, and_true, Shaped] at *
  obtain ⟨rfl, rfl, rfl, rfl, rfl, rfl, rfl, rfl, rfl, eL, eR, eO, rfl, rfl, rfl, rfl, rfl, rfl, rfl, rfl, rfl, rfl,
    rfl, rfl, rfl, rfl, rfl, rfl, rfl, rfl⟩ := h
  exact ⟨rfl, flatten_inj _ (hL.1.trans hL'.1.symm) hL.2 hL'.2 eL, flatten_inj _ (hR.1.trans hR'.1.symm) hR.2 hR'.2 eR,
    flatten_inj _ (hO.1.trans hO'.1.symm) hO.2 hO'.2 eO, rfl, rfl⟩

/-- The circuits made by the prover have the announced sizes. -/
theorem toCircuit_shaped (cs : CS F) (gv hv : List G) (g h u : G) :
    Shaped (gensOf cs gv hv g h u) (toCircuit cs).CL ∧ Shaped (gensOf cs gv hv g h u) (toCircuit cs).CR ∧
      Shaped (gensOf cs gv hv g h u) (toCircuit cs).CO := by
  have hlen : ∀ (l : LC F) (n m : Nat), (denseRow n m l).length = m := by
    intro l n m
    unfold denseRow
    have : ∀ (l : LC F) (row : List F),
        (l.foldl (fun row t => row.set (Groth16.pos n t.1) t.2) row).length = row.length := by
      intro l
      induction l with
      | nil => intro row; rfl
      | cons t l ih => intro row; rw [List.foldl_cons, ih, List.length_set]
    rw [this, List.length_replicate]
  refine ⟨⟨?_, ?_⟩, ⟨?_, ?_⟩, ⟨?_, ?_⟩⟩
  · simp [toCircuit, gensOf]
  · simp only [toCircuit, gensOf, List.mem_map]
    rintro r ⟨k, -, rfl⟩
    exact hlen _ _ _
  · simp [toCircuit, gensOf]
  · simp only [toCircuit, gensOf, List.mem_map]
    rintro r ⟨k, -, rfl⟩
    exact hlen _ _ _
  · simp [toCircuit, gensOf]
  · simp only [toCircuit, gensOf, List.mem_map]
    rintro r ⟨k, -, rfl⟩
    exact hlen _ _ _

/-- All hypotheses of C120_foreign are met: the circuit `1 · 1 = 1` with foreign matrices over F17. -/
example : ∃ p : Bp.Proof F17 F17, p.t_x = innerProduct p.l_x p.r_x ∧
    verifyProof (fun _ => 2) (gensOf (oneCircuit : CS F17) [3] [5] 7 11 13) p
      { toCircuit (oneCircuit : CS F17) with CL := [[4]], CR := [[9]], CO := [] } [] = some true := by
  refine C120_foreign (fun _ => 2) (fun _ => by decide) (oneCircuit : CS F17) [] rfl (by simp [oneCircuit])
    (by simp [Groth16.inRange, oneCircuit]) ?_ ?_ [3] [5] 7 11 13 (by simp [oneCircuit, nextPow2])
    (by simp [oneCircuit, nextPow2]) [[4]] [[9]] []
  · intro k hk
    have : k = ⟨[(.input 0, 1)], [(.input 0, 1)], [(.input 0, 1)]⟩ := by simpa [oneCircuit] using hk
    subst this
    simp [LC.NoRepeat]
  · intro k hk
    have : k = ⟨[(.input 0, 1)], [(.input 0, 1)], [(.input 0, 1)]⟩ := by simpa [oneCircuit] using hk
    subst this
    simp [R1C.Holds, LC.eval, CS.witness, oneCircuit]

/-- All hypotheses of C120_violated are met by a constant challenge. -/
example : ∀ t : Transcript F17 F17, (fun _ => 2 : Oracle F17 F17) t ≠ 0 := fun _ => (show (2 : F17) ≠ 0 by decide)

/-- All hypotheses of C120_partial are met by two runs for circuits that differ only in their maps. -/
example (p : Bp.Proof F17 F17) : ∃ c c' : R1csCircuit F17, Shaped (gensOf (oneCircuit : CS F17) [3] [5] (7 : F17) 11 13) c.CL ∧
    Shaped (gensOf (oneCircuit : CS F17) [3] [5] (7 : F17) 11 13) c.CR ∧
    Shaped (gensOf (oneCircuit : CS F17) [3] [5] (7 : F17) 11 13) c.CO ∧
    (fullTr (gensOf (oneCircuit : CS F17) [3] [5] (7 : F17) 11 13) c [] p).map flatMsg =
      (fullTr (gensOf (oneCircuit : CS F17) [3] [5] (7 : F17) 11 13) c' [] p).map flatMsg ∧ c.CO_T ≠ c'.CO_T := by
  obtain ⟨h1, h2, h3⟩ := toCircuit_shaped (oneCircuit : CS F17) [3] [5] (7 : F17) 11 13
  refine ⟨toCircuit oneCircuit, { toCircuit (oneCircuit : CS F17) with CO_T := fun _ => none }, h1, h2, h3, rfl, ?_⟩
  intro he
  have := congrFun he (0, 0)
  simp [toCircuit, oneCircuit, matrixToMap, denseRow, Groth16.pos] at this

end Zkp
