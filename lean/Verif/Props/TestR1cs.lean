/- C124: the circuits of the tests of the R1CS argument systems are proved and verified for all values, not only those of the
tests. -/
import Verif.Model.TestR1cs
import Verif.Proof.CliCircuits
import Verif.Props.Groth16
import Verif.Props.Bulletproofs
import Verif.Props.MarlinComplete
import Verif.Props.SpartanSetup

set_option linter.unusedSectionVars false
set_option linter.unusedSimpArgs false

namespace Zkp.TestR1cs

open Cli

variable {F : Type} [Field F]

/-- The constraint of `mini`. -/
def miniCon : R1C F := ⟨[(.aux 0, 1)], [(.input 0, 2), (.aux 1, 1)], [(.input 1, 1)]⟩

/-- The runs of `mini` with and without values. -/
theorem mini_run (x y z : F) (num : Nat) :
    mini (some x) (some y) (some z) num (CS.new true) =
      .ok ((.aux 0, .aux 1, .input 1), ⟨true, [1, z], [x, y], List.replicate num miniCon⟩) ∧
    mini (none : Option F) none none num (CS.new false) =
      .ok ((.aux 0, .aux 1, .input 1), ⟨false, [1, 0], [0, 0], List.replicate num miniCon⟩) := by
  have hl : ∀ m (cs : CS F), miniLoop (.aux 0) (.aux 1) (.input 1) m cs = .ok ((), { cs with
      constraints := cs.constraints ++ List.replicate m miniCon }) := by
    intro m
    induction m with
    | zero => intro cs; simp [miniLoop, pure, StateT.pure, Except.pure]
    | succ m ih =>
      intro cs
      have e : LC.addTerm [(.aux 1, (1 : F))] 2 .one = [(.input 0, 2), (.aux 1, 1)] :=
        (congrArg (fun l => LC.addTerm l 2 .one) (lc_var (.aux 1)).symm).trans (lc_one 1 2)
      simp [miniLoop, bind, StateT.bind, Except.bind, enforce, ih, List.replicate_succ, e, lc_var, miniCon]
  constructor
  · simp [mini, bind, StateT.bind, Except.bind, alloc, allocInput, okOr, CS.new, hl, pure, StateT.pure, Except.pure]
  · simp [mini, bind, StateT.bind, Except.bind, alloc, allocInput, okOr, CS.new, hl, pure, StateT.pure, Except.pure]

/-- What the runs of a circuit with and without values have in common. -/
structure SameShape (cG cP : CS F) : Prop where
  cons : cG.constraints = cP.constraints
  inputs : cG.inputs.length = cP.inputs.length
  aux : cG.aux.length = cP.aux.length

theorem SameShape.r1cs {cG cP : CS F} (h : SameShape cG cP) : Spartan.generateR1cs cG = Spartan.generateR1cs cP := by
  simp only [Spartan.generateR1cs, h.cons, h.inputs, h.aux]

section mini
variable {x y z : F} {num : Nat} {cG cP : CS F} {v w : Index × Index × Index}

theorem mini_cP (hP : mini (some x) (some y) (some z) num (CS.new true) = .ok (w, cP)) :
    cP = ⟨true, [1, z], [x, y], List.replicate num miniCon⟩ := by
  rw [(mini_run x y z num).1] at hP
  exact (congrArg Prod.snd (Except.ok.inj hP)).symm

theorem mini_shape (hG : mini (none : Option F) none none num (CS.new false) = .ok (v, cG))
    (hP : mini (some x) (some y) (some z) num (CS.new true) = .ok (w, cP)) : SameShape cG cP := by
  rw [(mini_run x y z num).2] at hG
  obtain rfl : _ = cG := congrArg Prod.snd (Except.ok.inj hG)
  rw [mini_cP hP]
  exact ⟨rfl, rfl, rfl⟩

theorem mini_valid (h : x * (y + 2) = z) : (⟨true, [1, z], [x, y], List.replicate num miniCon⟩ : CS F).Valid := by
  rintro w ⟨h1, h2⟩ k hk
  obtain rfl := (List.mem_replicate.mp hk).2
  have e0 : w (.input 0) = 1 := h1 0 _ rfl
  have e1 : w (.input 1) = z := h1 1 _ rfl
  have e2 : w (.aux 0) = x := h2 0 _ rfl
  have e3 : w (.aux 1) = y := h2 1 _ rfl
  simp [miniCon, R1C.Holds, LC.eval, e0, e1, e2, e3, ← h, add_comm]

theorem mini_closed (p : Bool) : (⟨p, [1, z], [x, y], List.replicate num miniCon⟩ : CS F).Closed := by
  intro k hk t ht
  obtain rfl := (List.mem_replicate.mp hk).2
  simp only [miniCon, List.cons_append, List.nil_append, List.mem_cons, List.not_mem_nil, or_false] at ht
  rcases ht with rfl | rfl | rfl | rfl <;> simp

theorem mini_inRange : Groth16.inRange (⟨true, [1, z], [x, y], List.replicate num miniCon⟩ : CS F) = true := by
  simp only [Groth16.inRange, List.all_eq_true]
  intro k hk t ht
  obtain rfl := (List.mem_replicate.mp hk).2
  simp only [miniCon, List.cons_append, List.nil_append, List.mem_cons, List.not_mem_nil, or_false] at ht
  rcases ht with rfl | rfl | rfl | rfl <;> simp

theorem mini_sat (h : x * (y + 2) = z) : (⟨true, [1, z], [x, y], List.replicate num miniCon⟩ : CS F).Sat
    (⟨true, [1, z], [x, y], List.replicate num miniCon⟩ : CS F).witness := by
  intro k hk
  obtain rfl := (List.mem_replicate.mp hk).2
  simp [miniCon, R1C.Holds, LC.eval, CS.witness, ← h, add_comm]

end mini

section groth16
open Groth16 Polynomial

variable [DecidableEq F] {G1 G2 GT : Type} [AddCommGroup G1] [AddCommGroup G2] [AddCommGroup GT]
variable [Module F G1] [Module F G2] [Module F GT] [DecidableEq GT]

/-- The Groth16 test (`groth16/tests/mini.rs`) for all values with `x · (y + 2) = z`, any number of copies of the constraint, all
trapdoors and random values. -/
theorem C124_groth16 (e : G1 →ₗ[F] G2 →ₗ[F] GT) (mkDomain : Nat → Option (Domain F)) (x y z : F) (num : Nat)
    (h : x * (y + 2) = z) {cG cP : CS F} {v w : Index × Index × Index}
    (hG : mini (none : Option F) none none num (CS.new false) = .ok (v, cG))
    (hP : mini (some x) (some y) (some z) num (CS.new true) = .ok (w, cP)) (D : Domain F)
    (hD : mkDomain (num + 2) = some D) (hV : D.Valid) (hn : num + 2 ≤ D.size)
    (α β γ δ t : F) (hγ : γ ≠ 0) (hδ : δ ≠ 0) (g1 : G1) (g2 : G2) (r s : F) :
    ∃ pk pf, generateParameters mkDomain cG α β γ δ t g1 g2 = .ok pk ∧ createProof mkDomain pk cP r s = .ok pf ∧
      verifyProof e (prepareVerifyingKey e pk.vk) pf [z] = .ok true := by
  have hs := mini_shape hG hP
  obtain rfl := mini_cP hP
  exact groth16_complete e mkDomain cG _ hs.cons hs.inputs hs.aux [z] rfl mini_inRange D (by simpa using hD) hV (by simpa using hn)
    (mini_sat h) α β γ δ t hγ hδ g1 g2 r s

end groth16

section bulletproofs
open Bp

variable [DecidableEq F] {G : Type} [AddCommGroup G] [Module F G] [DecidableEq G]

/-- The Bulletproofs test (`bulletproofs/tests/mini.rs`) for all values with `x · (y + 2) = z` and any positive number of copies of the
constraint. -/
theorem C124_bulletproofs (ch : Oracle F G) (hch : ∀ t, ch t ≠ 0) (x y z : F) (num : Nat) (hnum : 0 < num) (h : x * (y + 2) = z)
    {cP : CS F} {w : Index × Index × Index}
    (hP : mini (some x) (some y) (some z) num (CS.new true) = .ok (w, cP)) (gv hv : List G) (g h' u : G) (rnd : Rand F)
    (hgl : gv.length = nextPow2 (max num 2)) (hhl : hv.length = nextPow2 (max num 2))
    (hsL : rnd.sL.length = max num 2) (hsR : rnd.sR.length = max num 2) :
    ∃ gens circuit p, createProof ch cP gv hv g h' u rnd = some (gens, circuit, p) ∧
      verifyProof ch gens p circuit [z] = some true := by
  obtain rfl := mini_cP hP
  obtain ⟨⟨gens, circuit, p⟩, hp⟩ := bulletproofs_prover_succeeds ch hch
    (⟨true, [1, z], [x, y], List.replicate num miniCon⟩ : CS F) (by simp; omega) mini_inRange gv hv g h' u rnd
    (by simpa using hgl) (by simpa using hhl)
  refine ⟨gens, circuit, p, hp, (bulletproofs_complete ch _ [z] rfl ?_ (mini_sat h) gv hv g h' u rnd (by simpa using hgl)
    (by simpa using hhl) (by simpa using hsL) (by simpa using hsR) gens circuit p hp).2.2⟩
  intro k hk
  obtain rfl := (List.mem_replicate.mp hk).2
  simp [miniCon, LC.NoRepeat]

end bulletproofs

section marlin
open Marlin Polynomial

variable [DecidableEq F] {G1 G2 GT : Type} [AddCommGroup G1] [AddCommGroup G2] [AddCommGroup GT]
variable [Module F G1] [Module F G2] [Module F GT] [DecidableEq GT]

/-- Marlin and the circuit of `marlin/tests/mini.rs` with a single copy of the constraint instead of ten: no key and no values give a
proof. (For the proofs that are output, see C83.) -/
theorem C124_marlin_single {checked : Bool} {mk : Nat → Option (Domain F)} (hmk : MkOk mk) (rng : FsRng F G1 G2)
    {N : Nat} {τ : F} {g γ : G1} {h : G2} {cG cP : CS F} {v : Index × Index × Index}
    (hG : mini (none : Option F) none none 1 (CS.new false) = .ok (v, cG))
    {ipk : IndexProverKey F G1 G2} {ivk : IndexVerifierKey F G1 G2}
    (coins : Coins F) (hhide : ∀ l, (coins.hide l).1.natDegree ≤ 1 ∧ (coins.hide l).2.natDegree ≤ 1)
    (proof : Marlin.Proof F G1) :
    ¬ (index checked mk (Kzg.setup N τ g γ h) cG = .ok (ipk, ivk) ∧ prove mk rng ipk cP coins = .ok proof) := by
  rintro ⟨hi, hp⟩
  refine C83_few_entries hmk rng hi ?_ cP coins hhide proof hp
  rw [(mini_run (0 : F) 0 0 1).2] at hG
  obtain rfl : _ = cG := congrArg Prod.snd (Except.ok.inj hG)
  have hx := index_ahp hi
  obtain ⟨H, K, deg, key⟩ := index_ok hmk hi
  rw [← key.hinfo]
  have hm : (Ics.of (⟨false, [1, 0], [0, 0], List.replicate 1 miniCon⟩ : CS F)).makeSquare.process checked =
      .ok ([[(1, 2)], [], [], []], [[(2, 0), (1, 3)], [], [], []], [[(1, 1)], [], [], []]) := by
    cases checked <;> rfl
  unfold ahpIndex at hx
  dsimp only at hx
  rw [hm] at hx
  obtain ⟨m, e, hx⟩ := Kzg.bind_ok hx
  obtain rfl := Except.ok.inj e
  obtain ⟨X, -, hx⟩ := Kzg.bind_ok hx
  obtain ⟨H', -, hx⟩ := Kzg.bind_ok hx
  obtain ⟨K', -, hx⟩ := Kzg.bind_ok hx
  split at hx
  · cases hx
  · obtain ⟨_, -, hx⟩ := Kzg.bind_ok hx
    obtain ⟨_, -, hx⟩ := Kzg.bind_ok hx
    obtain ⟨_, -, hx⟩ := Kzg.bind_ok hx
    obtain ⟨_, -, hx⟩ := Kzg.bind_ok hx
    rw [← Except.ok.inj hx]
    simp [numNonZeros, density]

end marlin

section spartan
open Spartan Ml

variable [DecidableEq F] {G : Type} [AddCommGroup G] [DecidableEq G] [Module F G]

/-- The NIZK test (`spartan/tests/mini.rs`) for all values with `x · (y + 2) = z`. -/
theorem C124_nizk (h2 : (2 : F) ≠ 0) (h3 : (3 : F) ≠ 0) (draw : Nat → G) (x y z : F) (num : Nat) (h : x * (y + 2) = z)
    {cG cP : CS F} {v w : Index × Index × Index}
    (hG : mini (none : Option F) none none num (CS.new false) = .ok (v, cG))
    (hP : mini (some x) (some y) (some z) num (CS.new true) = .ok (w, cP)) (rand : SatRand F)
    (hr : rand.Shape (Nat.clog 2 num) 1) (ch : Oracle F G) (r1csHash paramsHash : F) (hch : ∀ t, ch t ≠ 0) :
    ∃ proof, createNizk ch (generateNizk draw cG).1 (generateNizk draw cG).2 cP rand r1csHash paramsHash = .ok proof ∧
      verifyNizk ch (generateNizk draw cG).1 (generateNizk draw cG).2 [z] proof r1csHash paramsHash = .ok () := by
  have hs : generateNizk draw cG = generateNizk draw cP := by simp only [generateNizk, (mini_shape hG hP).r1cs]
  rw [hs]
  obtain rfl := mini_cP hP
  refine C90_nizk h2 h3 draw _ (mini_closed true) (mini_valid h) [z] rfl (.single z) rand ?_ ch r1csHash paramsHash hch
  have e1 : Nat.clog 2 (generateR1cs (⟨true, [1, z], [x, y], List.replicate num miniCon⟩ : CS F)).numConstraints = Nat.clog 2 num := by
    simp [generateR1cs, clog_padTo]
  have e2 : Nat.clog 2 (generateR1cs (⟨true, [1, z], [x, y], List.replicate num miniCon⟩ : CS F)).t = 1 := by
    show Nat.clog 2 (padTo 2) = 1
    decide
  rw [e1, e2]
  exact hr

/-- The number of nonzero entries of a row. -/
def rowEntries (w : Nat) (row : List (F × Index)) : Nat := ((rowMap w row).filter fun e => e.2 ≠ 0).length

theorem switch_length (m : Rows F) (w : Nat) : (switchMatrixToList m w).2.1.length = (m.map (rowEntries w)).sum := by
  have key : ∀ (m : Rows F) k, ((m.zipIdx k).flatMap fun (row, i) =>
      ((rowMap w row).filter fun e => e.2 ≠ 0).map fun e => (e.2, i, e.1)).length = (m.map (rowEntries w)).sum := by
    intro m
    induction m with
    | nil => intro k; rfl
    | cons r m ih =>
      intro k
      rw [List.zipIdx_cons, List.flatMap_cons, List.length_append, ih]
      simp [rowEntries]
  simpa [switchMatrixToList] using key m 0

theorem mini_entries (h2 : (2 : F) ≠ 0) (x y z : F) (num : Nat) :
    (generateR1cs (⟨true, [1, z], [x, y], List.replicate num miniCon⟩ : CS F)).entries = num * 2 := by
  have ht : (generateR1cs (⟨true, [1, z], [x, y], List.replicate num miniCon⟩ : CS F)).t = 2 := (by decide : padTo 2 = 2)
  have ea : rowEntries 2 (pushRow (miniCon : R1C F).a) = 1 := by
    simp [rowEntries, rowMap, pushRow, miniCon, mapAdd, col]
  have eb : rowEntries 2 (pushRow (miniCon : R1C F).b) = 2 := by
    simp [rowEntries, rowMap, pushRow, miniCon, mapAdd, col, h2]
  have ec : rowEntries 2 (pushRow (miniCon : R1C F).c) = 1 := by
    simp [rowEntries, rowMap, pushRow, miniCon, mapAdd, col]
  have e0 : rowEntries 2 ([] : List (F × Index)) = 0 := rfl
  unfold Inst.entries
  rw [ht, switch_length, switch_length, switch_length]
  simp only [generateR1cs, List.map_append, List.map_map, List.map_replicate, Function.comp, List.sum_append, List.sum_replicate,
    ea, eb, ec, e0, smul_eq_mul]
  omega

/-- The SNARK test (`spartan/tests/mini.rs`) for all values with `x · (y + 2) = z` and any positive number of copies of the
constraint. -/
theorem C124_snark (h2 : (2 : F) ≠ 0) (h3 : (3 : F) ≠ 0) (draw : Nat → G) (x y z : F) (num : Nat) (hnum : 0 < num)
    (h : x * (y + 2) = z) {cG cP : CS F} {v w : Index × Index × Index}
    (hG : mini (none : Option F) none none num (CS.new false) = .ok (v, cG))
    (hP : mini (some x) (some y) (some z) num (CS.new true) = .ok (w, cP)) (rand : SatRand F)
    (hr : rand.Shape (Nat.clog 2 num) 1) (r1 r2 r3 : OpenRand F) (hr1 : r1.Enough (3 + Nat.clog 2 (num * 2)))
    (hr2 : r2.Enough (4 + Nat.clog 2 (num * 2))) (hr3 : r3.Enough (1 + max (Nat.clog 2 num) 2))
    (ch : Oracle F G) (r1csHash paramsHash encodeHash : F) (hch : ∀ t, ch t ≠ 0) :
    ∃ sat evals s enc commit, generateSnark draw cG [] = .ok (((sat, evals), s, enc, commit), []) ∧
    ∃ proof, createSnark ch sat evals s cP enc commit rand r1 r2 r3 r1csHash paramsHash encodeHash = .ok proof ∧
      verifySnark ch sat evals s [z] proof commit r1csHash paramsHash encodeHash = .ok () := by
  have hs : generateSnark draw cG = generateSnark draw cP := by simp only [generateSnark, (mini_shape hG hP).r1cs]
  rw [hs]
  obtain rfl := mini_cP hP
  have e1 : Nat.clog 2 (generateR1cs (⟨true, [1, z], [x, y], List.replicate num miniCon⟩ : CS F)).numConstraints = Nat.clog 2 num := by
    simp [generateR1cs, clog_padTo]
  have e2 : Nat.clog 2 (generateR1cs (⟨true, [1, z], [x, y], List.replicate num miniCon⟩ : CS F)).t = 1 := by
    show Nat.clog 2 (padTo 2) = 1
    decide
  have e3 := mini_entries h2 x y z num
  refine C90_snark h2 h3 draw _ (mini_closed true) (mini_valid h) [z] rfl (.single z) (by rw [e3]; omega) rand
    (by rw [e1, e2]; exact hr) r1 r2 r3 (by rw [e3]; exact hr1) (by rw [e3]; exact hr2) ?_ ch r1csHash paramsHash encodeHash hch
  unfold Inst.memVars
  rw [e1, e2]
  exact hr3

/-- The constraints of `demo`; repeated terms are not merged (C03). -/
def demoCons : List (R1C F) :=
  [⟨[(.input 0, 1), (.aux 0, -1)], [(.aux 0, 1)], []⟩,
   ⟨[(.input 0, 1), (.aux 1, -1)], [(.aux 1, 1)], [(.input 0, -1), (.input 0, -1)]⟩,
   ⟨[(.aux 0, 1)], [(.aux 0, 1)], [(.input 0, 1)]⟩,
   ⟨[(.aux 1, 1)], [(.aux 1, 1)], List.replicate 4 (.input 0, 1)⟩,
   ⟨[(.input 0, 1), (.aux 0, -1)], [(.aux 0, 1)], []⟩,
   ⟨[(.input 0, 1), (.aux 1, -1)], [(.aux 1, 1)], [(.input 0, -1), (.input 0, -1)]⟩,
   ⟨[(.input 1, 1)], [(.aux 2, 1)], [(.input 0, 1)]⟩,
   ⟨[(.aux 1, 1)], [(.input 0, 1), (.aux 1, 1)], List.replicate 6 (.input 0, 1)⟩]

/-- The runs of `demo` with and without values. -/
theorem demo_run (l r o p : F) :
    demo (some l) (some r) (some o) (some p) (CS.new true) =
      .ok ((.aux 0, .aux 1, .aux 2, .input 1), ⟨true, [1, p], [l, r, o], demoCons⟩) ∧
    ∃ i a, demo (none : Option F) none none none (CS.new false) =
      .ok ((.aux 0, .aux 1, .aux 2, .input 1), ⟨false, i, a, demoCons⟩) ∧ i.length = 2 ∧ a.length = 3 := by
  have key : ∀ pr i a, (do
      enforce ((LC.zero.addVar .one).subVar (.aux 0)) (LC.zero.addVar (.aux 0)) LC.zero
      enforce ((LC.zero.addVar .one).subVar (.aux 1)) (LC.zero.addVar (.aux 1)) ((LC.zero.subVar .one).subVar .one)
      enforce (LC.zero.addVar (.aux 0)) (LC.zero.addVar (.aux 0)) (LC.zero.addVar .one)
      enforce (LC.zero.addVar (.aux 1)) (LC.zero.addVar (.aux 1))
        ((((LC.zero.addVar .one).addVar .one).addVar .one).addVar .one)
      enforce ((LC.zero.addVar .one).subVar (.aux 0)) (LC.zero.addVar (.aux 0)) LC.zero
      enforce ((LC.zero.addVar .one).subVar (.aux 1)) (LC.zero.addVar (.aux 1)) ((LC.zero.subVar .one).subVar .one)
      enforce (LC.zero.addVar (.input 1)) (LC.zero.addVar (.aux 2)) (LC.zero.addVar .one)
      enforce (LC.zero.addVar (.aux 1)) ((LC.zero.addVar (.aux 1)).addVar .one)
        ((((((LC.zero.addVar .one).addVar .one).addVar .one).addVar .one).addVar .one).addVar .one)
      return (((.aux 0 : Index), (.aux 1 : Index), (.aux 2 : Index), (.input 1 : Index))) :
      Synth F (Index × Index × Index × Index)) ⟨pr, i, a, []⟩ = .ok ((.aux 0, .aux 1, .aux 2, .input 1), ⟨pr, i, a, demoCons⟩) := by
    intro pr i a
    simp [bind, StateT.bind, Except.bind, enforce, pure, StateT.pure, Except.pure, LC.addVar, LC.subVar, LC.subTerm, LC.addTerm,
      LC.zero, LC.getVarLoc, LC.scanLoc, Index.one, Index.cmp, demoCons]
  constructor
  · exact key true [1, p] [l, r, o]
  · exact ⟨[1, 0], [0, 0, 0], key false _ _, rfl, rfl⟩

section demo
variable {l r o p : F} {cG cP : CS F} {v w : Index × Index × Index × Index}

theorem demo_cP (hP : demo (some l) (some r) (some o) (some p) (CS.new true) = .ok (w, cP)) :
    w = (.aux 0, .aux 1, .aux 2, .input 1) ∧ cP = ⟨true, [1, p], [l, r, o], demoCons⟩ := by
  rw [(demo_run l r o p).1] at hP
  exact ⟨(congrArg Prod.fst (Except.ok.inj hP)).symm, (congrArg Prod.snd (Except.ok.inj hP)).symm⟩

theorem demo_shape (hG : demo (none : Option F) none none none (CS.new false) = .ok (v, cG))
    (hP : demo (some l) (some r) (some o) (some p) (CS.new true) = .ok (w, cP)) : SameShape cG cP := by
  obtain ⟨i, a, h, hi, ha⟩ := (demo_run l r o p).2
  rw [h] at hG
  obtain rfl : _ = cG := congrArg Prod.snd (Except.ok.inj hG)
  rw [(demo_cP hP).2]
  exact ⟨rfl, hi, ha⟩

end demo

/-- The circuit of `spartan/tests/test.rs` is satisfied exactly by `lhs = 1`, `rhs = 2` and `phs · ohs = 1`. -/
theorem C124_demo (l r o p : F) {cP : CS F} {vl vr vo vp : Index}
    (hP : demo (some l) (some r) (some o) (some p) (CS.new true) = .ok ((vl, vr, vo, vp), cP)) (w : Index → F)
    (h1 : w .one = 1) : cP.Sat w ↔ w vl = 1 ∧ w vr = 2 ∧ w vp * w vo = 1 := by
  obtain ⟨e, rfl⟩ := demo_cP hP
  obtain ⟨rfl, rfl, rfl, rfl⟩ : vl = .aux 0 ∧ vr = .aux 1 ∧ vo = .aux 2 ∧ vp = .input 1 := by simpa using e
  have h1 : w (.input 0) = 1 := h1
  simp only [CS.Sat, demoCons, List.forall_mem_cons, R1C.Holds, LC.eval, List.replicate, List.map_cons, List.map_nil, List.sum_cons,
    List.sum_nil, h1, List.not_mem_nil, false_imp_iff, implies_true, and_true]
  constructor
  · rintro ⟨h2, h3, h4, h5, -, -, h6, -⟩
    refine ⟨?_, ?_, ?_⟩
    · linear_combination h2 + h4
    · linear_combination h3 + h5
    · linear_combination h6
  · rintro ⟨h2, h3, h4⟩
    rw [h2, h3]
    refine ⟨by ring, by ring, by ring, by ring, by ring, by ring, by linear_combination h4, by ring⟩

theorem demo_valid {o p : F} (h : p * o = 1) : (⟨true, [1, p], [1, 2, o], demoCons⟩ : CS F).Valid := by
  rintro w ⟨h1, h2⟩
  refine (C124_demo 1 2 o p (demo_run 1 2 o p).1 w (h1 0 _ rfl)).mpr ⟨h2 0 _ rfl, h2 1 _ rfl, ?_⟩
  rw [h1 1 _ rfl, h2 2 _ rfl]
  exact h

theorem demo_closed (l r o p : F) : (⟨true, [1, p], [l, r, o], demoCons⟩ : CS F).Closed := by
  have key : ∀ k ∈ (demoCons : List (R1C F)), ∀ i ∈ (k.a ++ k.b ++ k.c).map Prod.fst, match i with
      | .input i => i < 2
      | .aux i => i < 3 := by
    simp only [demoCons, List.replicate, List.cons_append, List.nil_append, List.map_cons, List.map_nil, List.forall_mem_cons]
    simp
  intro k hk t ht
  exact key k hk t.1 (List.mem_map_of_mem ht)

theorem demo_entries (h2 : (2 : F) ≠ 0) (h3 : (3 : F) ≠ 0) (l r o p : F) :
    (generateR1cs (⟨true, [1, p], [l, r, o], demoCons⟩ : CS F)).entries = 12 := by
  have ht : (generateR1cs (⟨true, [1, p], [l, r, o], demoCons⟩ : CS F)).t = 4 := (by decide : padTo 3 = 4)
  have hp : padTo 8 = 8 := by decide
  have h4 : (1 + 1 + 1 + 1 : F) ≠ 0 := by
    rw [show (1 + 1 + 1 + 1 : F) = 2 * 2 by norm_num]
    exact mul_ne_zero h2 h2
  have h6 : (1 + 1 + 1 + 1 + 1 + 1 : F) ≠ 0 := by
    rw [show (1 + 1 + 1 + 1 + 1 + 1 : F) = 2 * 3 by norm_num]
    exact mul_ne_zero h2 h3
  have h2' : (-1 + -1 : F) ≠ 0 := by
    rw [show (-1 + -1 : F) = -2 by norm_num]
    exact neg_ne_zero.mpr h2
  unfold Inst.entries
  rw [ht, switch_length, switch_length, switch_length]
  simp [generateR1cs, demoCons, hp, rowEntries, rowMap, pushRow, mapAdd, col, List.replicate, h4, h6, h2']

/-- The NIZK test of `spartan/tests/test.rs` for all satisfying values. -/
theorem C124_demo_nizk (h2 : (2 : F) ≠ 0) (h3 : (3 : F) ≠ 0) (draw : Nat → G) (o p : F) (h : p * o = 1)
    {cG cP : CS F} {v w : Index × Index × Index × Index}
    (hG : demo (none : Option F) none none none (CS.new false) = .ok (v, cG))
    (hP : demo (some 1) (some 2) (some o) (some p) (CS.new true) = .ok (w, cP)) (rand : SatRand F)
    (hr : rand.Shape 3 2) (ch : Oracle F G) (r1csHash paramsHash : F) (hch : ∀ t, ch t ≠ 0) :
    ∃ proof, createNizk ch (generateNizk draw cG).1 (generateNizk draw cG).2 cP rand r1csHash paramsHash = .ok proof ∧
      verifyNizk ch (generateNizk draw cG).1 (generateNizk draw cG).2 [p] proof r1csHash paramsHash = .ok () := by
  have hs : generateNizk draw cG = generateNizk draw cP := by simp only [generateNizk, (demo_shape hG hP).r1cs]
  rw [hs]
  obtain ⟨-, rfl⟩ := demo_cP hP
  refine C90_nizk h2 h3 draw _ (demo_closed _ _ _ _) (demo_valid h) [p] rfl (.single p) rand ?_ ch r1csHash paramsHash hch
  have e1 : Nat.clog 2 (generateR1cs (⟨true, [1, p], [1, 2, o], demoCons⟩ : CS F)).numConstraints = 3 := by
    show Nat.clog 2 (padTo 8) = 3
    decide
  have e2 : Nat.clog 2 (generateR1cs (⟨true, [1, p], [1, 2, o], demoCons⟩ : CS F)).t = 2 := by
    show Nat.clog 2 (padTo 3) = 2
    decide
  rw [e1, e2]
  exact hr

/-- The SNARK test of `spartan/tests/test.rs` for all satisfying values. -/
theorem C124_demo_snark (h2 : (2 : F) ≠ 0) (h3 : (3 : F) ≠ 0) (draw : Nat → G) (o p : F) (h : p * o = 1)
    {cG cP : CS F} {v w : Index × Index × Index × Index}
    (hG : demo (none : Option F) none none none (CS.new false) = .ok (v, cG))
    (hP : demo (some 1) (some 2) (some o) (some p) (CS.new true) = .ok (w, cP)) (rand : SatRand F)
    (hr : rand.Shape 3 2) (r1 r2 r3 : OpenRand F) (hr1 : r1.Enough 7) (hr2 : r2.Enough 8) (hr3 : r3.Enough 4)
    (ch : Oracle F G) (r1csHash paramsHash encodeHash : F) (hch : ∀ t, ch t ≠ 0) :
    ∃ sat evals s enc commit, generateSnark draw cG [] = .ok (((sat, evals), s, enc, commit), []) ∧
    ∃ proof, createSnark ch sat evals s cP enc commit rand r1 r2 r3 r1csHash paramsHash encodeHash = .ok proof ∧
      verifySnark ch sat evals s [p] proof commit r1csHash paramsHash encodeHash = .ok () := by
  have hs : generateSnark draw cG = generateSnark draw cP := by simp only [generateSnark, (demo_shape hG hP).r1cs]
  rw [hs]
  obtain ⟨-, rfl⟩ := demo_cP hP
  have e1 : Nat.clog 2 (generateR1cs (⟨true, [1, p], [1, 2, o], demoCons⟩ : CS F)).numConstraints = 3 := by
    show Nat.clog 2 (padTo 8) = 3
    decide
  have e2 : Nat.clog 2 (generateR1cs (⟨true, [1, p], [1, 2, o], demoCons⟩ : CS F)).t = 2 := by
    show Nat.clog 2 (padTo 3) = 2
    decide
  have e3 := demo_entries h2 h3 1 2 o p
  have e4 : Nat.clog 2 12 = 4 := by decide
  refine C90_snark h2 h3 draw _ (demo_closed _ _ _ _) (demo_valid h) [p] rfl (.single p) (by rw [e3]; omega) rand
    (by rw [e1, e2]; exact hr) r1 r2 r3 (by rw [e3, e4]; exact hr1) (by rw [e3, e4]; exact hr2) ?_ ch r1csHash paramsHash encodeHash
    hch
  unfold Inst.memVars
  rw [e1, e2]
  exact hr3

end spartan

/-! ### Examples -/

/-- Groth16 with `3 · (4 + 2) = 1` modulo 17. -/
example : ∃ cG cP v w, mini (none : Option F17) none none 2 (CS.new false) = .ok (v, cG) ∧
    mini (some 3) (some 4) (some 1) 2 (CS.new true) = .ok (w, cP) ∧
    ∃ pk pf, Groth16.generateParameters Groth16Ex.mk cG 2 3 5 7 11 (1 : F17) (1 : F17) = .ok pk ∧
      Groth16.createProof Groth16Ex.mk pk cP 13 14 = .ok pf ∧
      Groth16.verifyProof Groth16Ex.e (Groth16.prepareVerifyingKey Groth16Ex.e pk.vk) pf [1] = .ok true :=
  ⟨_, _, _, _, (mini_run (3 : F17) 4 1 2).2, (mini_run (3 : F17) 4 1 2).1,
    C124_groth16 Groth16Ex.e Groth16Ex.mk 3 4 1 2 (by decide) (mini_run 3 4 1 2).2 (mini_run 3 4 1 2).1 Groth16Ex.D4 rfl
      Groth16Ex.d4_valid (by decide) 2 3 5 7 11 (by decide) (by decide) 1 1 13 14⟩

/-- Bulletproofs with the same values. -/
example : ∃ cP w, mini (some 3) (some 4) (some (1 : F17)) 2 (CS.new true) = .ok (w, cP) ∧
    ∃ gens circuit p, Bp.createProof BpEx.ch cP [4, 5] [6, 7] 6 7 8 ⟨[1, 2], [2, 3], 3, 4, 5, 6, 7, 8, 9, 10, 11, 12, 13, 14⟩ =
      some (gens, circuit, p) ∧ Bp.verifyProof BpEx.ch gens p circuit [1] = some true :=
  ⟨_, _, (mini_run (3 : F17) 4 1 2).1,
    C124_bulletproofs BpEx.ch (by intro t; unfold BpEx.ch; split <;> decide) 3 4 1 2 (by decide) (by decide)
      (mini_run 3 4 1 2).1 [4, 5] [6, 7] 6 7 8 _ (by decide) (by decide) rfl rfl⟩

/-- Random scalars for one round of the first and two of the second sum-check. -/
def exRand : Spartan.SatRand F17 :=
  ⟨[1], [⟨1, 2, [3, 4, 5, 6], 6, 7⟩], [⟨1, 2, [3, 4, 5], 6, 7⟩, ⟨8, 9, [10, 11, 12], 13, 14⟩],
    1, 2, 3, 4, 5, 6, 7, 8, 9, 10, 11, 12, 13, 14, 15, 16, [(1, 2)], 3⟩

theorem exRand_shape : exRand.Shape (Nat.clog 2 2) 1 := by
  rw [show Nat.clog 2 2 = 1 by decide]
  exact ⟨rfl, rfl, by simp [exRand], rfl, by simp [exRand], rfl⟩

/-- Both Spartan systems with the public input zero, `0 · (4 + 2) = 0`. -/
example : ∃ cG cP v w, mini (none : Option F17) none none 2 (CS.new false) = .ok (v, cG) ∧
    mini (some 0) (some 4) (some 0) 2 (CS.new true) = .ok (w, cP) ∧
    (∃ proof, Spartan.createNizk Spartan.Ex79.ch (Spartan.generateNizk (fun i => (i : F17) + 1) cG).1
        (Spartan.generateNizk (fun i => (i : F17) + 1) cG).2 cP exRand 1 2 = .ok proof ∧
      Spartan.verifyNizk Spartan.Ex79.ch (Spartan.generateNizk (fun i => (i : F17) + 1) cG).1
        (Spartan.generateNizk (fun i => (i : F17) + 1) cG).2 [0] proof 1 2 = .ok ()) ∧
    ∃ sat evals s enc commit, Spartan.generateSnark (fun i => (i : F17) + 1) cG [] = .ok (((sat, evals), s, enc, commit), []) ∧
    ∃ proof, Spartan.createSnark Spartan.Ex79.ch sat evals s cP enc commit exRand Spartan.Ex81.openRand Spartan.Ex81.openRand
        Spartan.Ex81.openRand 1 2 3 = .ok proof ∧
      Spartan.verifySnark Spartan.Ex79.ch sat evals s [0] proof commit 1 2 3 = .ok () :=
  ⟨_, _, _, _, (mini_run (0 : F17) 4 0 2).2, (mini_run (0 : F17) 4 0 2).1,
    C124_nizk (by decide) (by decide) _ 0 4 0 2 (by decide) (mini_run 0 4 0 2).2 (mini_run 0 4 0 2).1 exRand exRand_shape _ 1 2
      Spartan.Ex79.ch_ne,
    C124_snark (by decide) (by decide) _ 0 4 0 2 (by decide) (by decide) (mini_run 0 4 0 2).2 (mini_run 0 4 0 2).1 exRand exRand_shape
      _ _ _ (by unfold Spartan.OpenRand.Enough; decide) (by unfold Spartan.OpenRand.Enough; decide)
      (by unfold Spartan.OpenRand.Enough; decide) _ 1 2 3 Spartan.Ex79.ch_ne⟩

/-- Random scalars for three rounds of the first and of the second sum-check. -/
def demoRand : Spartan.SatRand F17 :=
  ⟨[1, 2], List.replicate 3 ⟨1, 2, [3, 4, 5, 6], 6, 7⟩, List.replicate 3 ⟨1, 2, [3, 4, 5], 6, 7⟩,
    1, 2, 3, 4, 5, 6, 7, 8, 9, 10, 11, 12, 13, 14, 15, 16, [(1, 2)], 3⟩

theorem demoRand_shape : demoRand.Shape 3 2 := ⟨rfl, rfl, by simp [demoRand], rfl, by simp [demoRand], rfl⟩

/-- Random scalars for the openings. -/
def demoOpen : Spartan.OpenRand F17 := ⟨3, 4, 5, [(1, 2), (3, 4), (5, 6), (7, 8)]⟩

/-- Both Spartan systems with `lhs = 1`, `rhs = 2`, `ohs = 6` and `phs = 3`; the test has ones in place of the last two. -/
example : ∃ cG cP v w, demo (none : Option F17) none none none (CS.new false) = .ok (v, cG) ∧
    demo (some 1) (some 2) (some 6) (some 3) (CS.new true) = .ok (w, cP) ∧
    (∃ proof, Spartan.createNizk Spartan.Ex79.ch (Spartan.generateNizk (fun i => (i : F17) + 1) cG).1
        (Spartan.generateNizk (fun i => (i : F17) + 1) cG).2 cP demoRand 1 2 = .ok proof ∧
      Spartan.verifyNizk Spartan.Ex79.ch (Spartan.generateNizk (fun i => (i : F17) + 1) cG).1
        (Spartan.generateNizk (fun i => (i : F17) + 1) cG).2 [3] proof 1 2 = .ok ()) ∧
    ∃ sat evals s enc commit, Spartan.generateSnark (fun i => (i : F17) + 1) cG [] = .ok (((sat, evals), s, enc, commit), []) ∧
    ∃ proof, Spartan.createSnark Spartan.Ex79.ch sat evals s cP enc commit demoRand demoOpen demoOpen demoOpen 1 2 3 = .ok proof ∧
      Spartan.verifySnark Spartan.Ex79.ch sat evals s [3] proof commit 1 2 3 = .ok () := by
  obtain ⟨i, a, hG, -⟩ := (demo_run (1 : F17) 2 6 3).2
  exact ⟨_, _, _, _, hG, (demo_run (1 : F17) 2 6 3).1,
    C124_demo_nizk (by decide) (by decide) _ 6 3 (by decide) hG (demo_run 1 2 6 3).1 demoRand demoRand_shape _ 1 2
      Spartan.Ex79.ch_ne,
    C124_demo_snark (by decide) (by decide) _ 6 3 (by decide) hG (demo_run 1 2 6 3).1 demoRand demoRand_shape demoOpen demoOpen
      demoOpen (by unfold Spartan.OpenRand.Enough; decide) (by unfold Spartan.OpenRand.Enough; decide)
      (by unfold Spartan.OpenRand.Enough; decide) _ 1 2 3 Spartan.Ex79.ch_ne⟩

/-- The values of the test satisfy its circuit, others do not. -/
example (w : Index → F17) (h : w .one = 1) (cP : CS F17) (v : Index × Index × Index × Index)
    (hP : demo (some 1) (some 2) (some 1) (some (1 : F17)) (CS.new true) = .ok (v, cP)) :
    (w v.1 = 1 → w v.2.1 = 2 → w v.2.2.1 = 1 → w v.2.2.2 = 1 → cP.Sat w) ∧ (w v.1 = 0 → ¬ cP.Sat w) :=
  ⟨fun a b c d => (C124_demo 1 2 1 1 hP w h).mpr ⟨a, b, by rw [c, d]; decide⟩, fun a hs => by
    have := ((C124_demo 1 2 1 1 hP w h).mp hs).1
    rw [a] at this
    exact absurd this (by decide)⟩

/-- For Marlin, over the field with 17 elements and with the domains of C83. -/
example (rng : Marlin.FsRng F17 F17 F17) (ipk : Marlin.IndexProverKey F17 F17 F17) (ivk : Marlin.IndexVerifierKey F17 F17 F17)
    (proof : Marlin.Proof F17 F17) : ∃ cG v, mini (none : Option F17) none none 1 (CS.new false) = .ok (v, cG) ∧
    ¬ (Marlin.index false Ex17.mkAll (Kzg.setup 13 (3 : F17) (1 : F17) (2 : F17) (1 : F17)) cG = .ok (ipk, ivk) ∧
      Marlin.prove Ex17.mkAll rng ipk ⟨true, [1, 1], [3, 4], [miniCon]⟩ ⟨1, 1, 1, Polynomial.X, fun _ => (0, 0)⟩ = .ok proof) :=
  ⟨_, _, (mini_run (0 : F17) 0 0 1).2,
    C124_marlin_single Ex17.mkAll_ok rng (mini_run (0 : F17) 0 0 1).2 _ (by simp) proof⟩

end Zkp.TestR1cs
