/- Property C34, second part: Bulletproofs with the check that is missing are arguments of knowledge. -/
import Verif.Proof.BpTree
import Verif.Props.Bulletproofs

set_option linter.unusedSectionVars false
set_option linter.unusedSimpArgs false

namespace Zkp

open Bp

variable {F : Type} [Field F] [DecidableEq F]

/-- The coefficients as lists are a relation. -/
theorem Bp.relation_of {G : Type} [AddCommGroup G] [Module F G] (gens : Generators G) (r : Rel F)
    (h : relVal gens.N (fun t => gens.g_vec_N.getD t 0) (fun t => gens.h_vec_N.getD t 0) gens.g gens.h r = 0)
    (hr : ¬ RelZero gens.N r) :
    gens.Relation ((List.range gens.N).map r.1) ((List.range gens.N).map r.2.1) r.2.2.1 r.2.2.2 := by
  refine ⟨by simp, by simp, ?_, ?_⟩
  · by_contra hc
    push Not at hc
    refine hr ⟨fun t ht => hc.1 _ (List.mem_map.mpr ⟨t, List.mem_range.mpr ht, rfl⟩),
      fun t ht => hc.2.1 _ (List.mem_map.mpr ⟨t, List.mem_range.mpr ht, rfl⟩), hc.2.2.1, hc.2.2.2⟩
  · have key : ∀ (g : List G) (f : Nat → F), (List.zipWith (fun x g => x • g) ((List.range gens.N).map f) g).sum =
        ∑ t ∈ Finset.range gens.N, f t • g.getD t 0 := by
      intro g f
      have e : (List.zipWith (fun x g => x • g) ((List.range gens.N).map f) g).sum =
          msm g ((List.range gens.N).map f) := by
        unfold msm
        rw [List.zipWith_comm]
      rw [e, msm_eq_sum g _ gens.N (by simp)]
      refine Finset.sum_congr rfl fun t ht => ?_
      rw [range_map_getD, if_pos (Finset.mem_range.mp ht)]
    rw [key, key]
    exact h

/-- C34, what holds if `t_x = ⟨l_x, r_x⟩` is checked as well.  There is an extractor that sees only eleven values of
`x` and the vectors `l_x` sent for them, such that for all circuits whose combinations mention no variable twice, all
public inputs and all challenges tried: if the verifier accepts the prover's proofs with these challenges, and they
satisfy the check that `verify_proof` leaves out, then the extractor finds an assignment that satisfies the circuit
together with the public inputs, or the scalars of the proofs give a relation between the generators.  The relation
depends on the scalars and the circuit only.  Missing: proofs that do not satisfy the check, for which it fails
(`C34_forgery`). -/
theorem C34_knowledge_partial : ∃ ext : (Nat → F) → (Nat → List F) → Nat → List F,
    ∀ (cs : CS F) (publicInputs : List F), cs.inputs.length = publicInputs.length + 1 → Groth16.inRange cs = true →
      (∀ k ∈ cs.constraints, k.a.NoRepeat ∧ k.b.NoRepeat ∧ k.c.NoRepeat) →
    ∀ (c : Tries F) (sh : Nat → Nat → Nat → Shown F),
      let n := cs.constraints.length
      let N := nextPow2 (max cs.constraints.length cs.aux.length)
      c.Distinct n N → (∀ i < N, ∀ j < 3 * n + 1, ∀ k < 11, (sh i j k).Inner N) →
      ∃ (a b : List F) (d e : F), ∀ (G : Type) [AddCommGroup G] [Module F G] [DecidableEq G] (gv hv : List G)
        (g h u : G) (p : Nat → Nat → Nat → Bp.Proof F G), gv.length = N → hv.length = N →
        (∀ i < N, ∀ j < 3 * n + 1, ∀ k < 11, (p i j k).shown = sh i j k) →
        AcceptedTree (gensOf cs gv hv g h u) (toCircuit cs) publicInputs c p →
        (cs.Sat fun v => match v with
          | .input i => (1 :: publicInputs).getD i 0
          | .aux i => (ext (c.x 0 0) (fun k => (sh 0 0 k).l_x) cs.aux.length).getD i 0) ∨
        (gensOf cs gv hv g h u).Relation a b d e := by
  refine ⟨readOff, ?_⟩
  intro cs publicInputs hin hrange hnr c sh n N hd hinner
  let S : Setting F := {
    n := n
    N := N
    k := cs.inputs.length
    nw := cs.aux.length
    e := fun zn i j => ((toCircuit cs).CL_T (i, j)).getD 0 + zn * ((toCircuit cs).CR_T (i, j)).getD 0 +
      zn * zn * ((toCircuit cs).CO_T (i, j)).getD 0
    s := 1 :: publicInputs }
  have hmax := le_nextPow2 (max cs.constraints.length cs.aux.length)
  have hn : n ≤ N := le_trans (le_max_left _ _) hmax
  have hw : cs.aux.length ≤ N := le_trans (le_max_right _ _) hmax
  have hN : 0 < N := Nat.two_pow_pos _
  by_cases hex : ∃ r, S.Cand c sh r ∧ ¬ RelZero N r
  · -- a relation
    obtain ⟨r, hr, hr0⟩ := hex
    refine ⟨(List.range N).map r.1, (List.range N).map r.2.1, r.2.2.1, r.2.2.2, ?_⟩
    intro G _ _ _ gv hv g h u p hgv hhv hsh hacc
    refine .inr (relation_of (gensOf cs gv hv g h u) r ?_ hr0)
    have leaf : ∀ i < N, ∀ j < 3 * n + 1, ∀ k < 11, ∃ v,
        VSpec v S.n S.N S.k S.nw S.e S.s (c.y i) (c.z i j) ∧
        checkT (gensOf cs gv hv g h u) v (p i j k) (c.x i j k) ∧
        checkP (gensOf cs gv hv g h u) v (p i j k) (c.x i j k) := by
      intro i hi j hj k hk
      obtain ⟨ch, ey, ez, ex, hv'⟩ := hacc.accepted i hi j hj k hk
      obtain ⟨v, h1, _, _, h2, h3⟩ := (C34_partial ch _ _ _ _).mp hv'
      rw [ey, ez] at h1
      rw [ex] at h2 h3
      exact ⟨v, vectors_spec h1, h2, h3⟩
    refine S.cand_val hd hN (relVal N (fun t => gv.getD t 0) (fun t => hv.getD t 0) g h) (p 0 0 0).A_I (p 0 0 0).A_O
      (p 0 0 0).A_W (p 0 0 0).S (fun i j m => match m with
        | 2 => (p i j 0).T_2 | 3 => (p i j 0).T_3 | 5 => (p i j 0).T_5 | 6 => (p i j 0).T_6 | 7 => (p i j 0).T_7
        | 8 => (p i j 0).T_8 | 9 => (p i j 0).T_9 | 10 => (p i j 0).T_10 | _ => 0) ?_ ?_ hr
    · intro i hi j hj k hk
      obtain ⟨v, hv', _, hP⟩ := leaf i hi j hj k hk
      obtain ⟨s1, s2, s3, s4⟩ := hacc.start i hi j hj k hk
      have hs := hsh i hi j hj k hk
      have hi' := hinner i hi j hj k hk
      rw [← hs] at hi' ⊢
      rw [← s1, ← s2, ← s3, ← s4]
      exact S.leafP_val (gens := gensOf cs gv hv g h u) hv' hi'.1 hi'.2.1 hP
    · intro i hi j hj k hk
      obtain ⟨v, hv', hT, _⟩ := leaf i hi j hj k hk
      have hm := hacc.middle i hi j hj k hk
      simp only [tTr, List.cons.injEq, Msg.pt.injEq, true_and, and_true] at hm
      obtain ⟨m2, m3, m5, m6, m7, m8, m9, m10⟩ := hm
      have hs := hsh i hi j hj k hk
      rw [← hs]
      simp only
      rw [← m2, ← m3, ← m5, ← m6, ← m7, ← m8, ← m9, ← m10]
      exact S.leafT_val (gens := gensOf cs gv hv g h u) hv' hT _ _
  · -- an assignment
    push Not at hex
    refine ⟨[], [], 0, 0, ?_⟩
    intro G _ _ _ gv hv g h u p hgv hhv hsh hacc
    left
    have hy0 : ∀ i < N, ∀ t < N, c.y i ^ t ≠ 0 := by
      intro i hi
      obtain ⟨ch, ey, ez, ex, hv'⟩ := hacc.accepted i hi 0 (by omega) 0 (by omega)
      obtain ⟨v, h1, _⟩ := (C34_partial ch _ _ _ _).mp hv'
      rw [ey, ez] at h1
      exact (vectors_spec h1).yne
    set w := readOff (c.x 0 0) (fun k => (sh 0 0 k).l_x) cs.aux.length with hwdef
    have hwl : w.length = cs.aux.length := by simp [hwdef, readOff]
    have hsat := S.satisfied hd hN hn hw hy0 (fun i j => ent (toCircuit cs).CL i j) (fun i j => ent (toCircuit cs).CR i j)
      (fun i j => ent (toCircuit cs).CO i j) (fun zn i j => by
        show (matrixToMap _ (i, j)).getD 0 + zn * (matrixToMap _ (i, j)).getD 0 + zn * zn * (matrixToMap _ (i, j)).getD 0 = _
        rw [matrixToMap_get, matrixToMap_get, matrixToMap_get]
        rfl) hinner hex w rfl
    intro k hk
    obtain ⟨a, ha, rfl⟩ := List.getElem_of_mem hk
    have key : ∀ f : R1C F → LC F, (f cs.constraints[a]).NoRepeat → (∀ t ∈ f cs.constraints[a],
          t ∈ cs.constraints[a].a ++ cs.constraints[a].b ++ cs.constraints[a].c) →
        ∑ j ∈ Finset.range cs.inputs.length, ent (cs.constraints.map fun k =>
          denseRow cs.inputs.length (cs.inputs.length + cs.aux.length) (f k)) a j * (1 :: publicInputs).getD j 0 +
        ∑ j ∈ Finset.range cs.aux.length, ent (cs.constraints.map fun k =>
          denseRow cs.inputs.length (cs.inputs.length + cs.aux.length) (f k)) a (j + cs.inputs.length) * w.getD j 0 =
        (f cs.constraints[a]).eval fun v => match v with
          | .input i => (1 :: publicInputs).getD i 0
          | .aux i => w.getD i 0 := by
      intro f hf hsub
      refine Eq.trans ?_ (C32_partial cs.inputs.length cs.aux.length (f cs.constraints[a]) ?_ hf (1 :: publicInputs) w
        (by simp [hin]) hwl)
      · rw [dot_two]
        unfold ent
        rw [List.getD_eq_getElem _ _ (by simpa using ha), List.getElem_map, hwl, ← show (1 :: publicInputs).length =
          cs.inputs.length by simp [hin]]
      · intro t ht
        have := List.all_eq_true.mp (List.all_eq_true.mp hrange _ hk) t (hsub t ht)
        rcases t with ⟨i | i, c⟩ <;> simpa using this
    have hk' := hnr _ hk
    have := hsat a ha
    have e1 := key R1C.a hk'.1 (fun t ht => by simp [ht])
    have e2 := key R1C.b hk'.2.1 (fun t ht => by simp [ht])
    have e3 := key R1C.c hk'.2.2 (fun t ht => by simp [ht])
    show _ * _ = _
    rw [← e1, ← e2, ← e3]
    exact this

/-! ### An honest prover asked 44 times -/

namespace Ex34

/-- `x · x = 9` with the witness 3. -/
def cs : CS F17 := ⟨true, [1, 9], [3], [⟨[(.aux 0, 1)], [(.aux 0, 1)], [(.input 1, 1)]⟩]⟩

/-- One value of `y`, four of `z`, eleven of `x`. -/
def tries : Tries F17 := ⟨fun _ => 2, fun _ j => j + 1, fun _ _ k => k⟩

def rnd : Rand F17 := ⟨[4], [5], 6, 7, 8, 9, 10, 11, 12, 13, 14, 15, 16, 1⟩

/-- The challenge function that answers with the given `y`, `z`, `x`. -/
def ch (y z x : F17) : Oracle F17 F17 := fun tr => match tr.getLast? with
  | some (.chal l) => if l = "y" then y else if l = "z" then z else if l = "x" then x else 3
  | _ => 3

/-- The proofs of the honest prover. -/
def proofs (i j k : Nat) : Bp.Proof F17 F17 :=
  match createProof (ch (tries.y i) (tries.z i j) (tries.x i j k)) cs [2] [3] 5 7 11 rnd with
  | some (_, _, p) => p
  | none => ⟨0, 0, 0, 0, 0, 0, 0, 0, 0, 0, 0, 0, 0, 0, [], [], 0, ⟨[], [], 0, 0⟩, 0⟩

/-- All hypotheses hold for these proofs. -/
example : cs.inputs.length = [(9 : F17)].length + 1 ∧ Groth16.inRange cs = true ∧
    (∀ k ∈ cs.constraints, k.a.NoRepeat ∧ k.b.NoRepeat ∧ k.c.NoRepeat) ∧
    nextPow2 (max cs.constraints.length cs.aux.length) = 1 ∧ tries.Distinct 1 1 ∧
    (∀ i < 1, ∀ j < 4, ∀ k < 11, (proofs i j k).shown.Inner 1) ∧
    AcceptedTree (gensOf cs [2] [3] 5 7 11) (toCircuit cs) [9] tries proofs := by
  have hN : (gensOf cs ([2] : List F17) [3] 5 7 11).N = 1 := by decide
  refine ⟨rfl, by decide, ?_, by decide, ?_, ?_, ?_⟩
  · simp [cs, LC.NoRepeat]
  · refine ⟨?_, ?_, ?_⟩
    · intro a ha b hb _
      simp at ha hb
      omega
    · intro i _ a ha b hb h
      have : ∀ a < 4, ∀ b < 4, tries.z 0 a = tries.z 0 b → a = b := by decide +kernel
      exact this a (by simpa using ha) b (by simpa using hb) h
    · intro i _ j _ a ha b hb h
      have : ∀ a < 11, ∀ b < 11, tries.x 0 0 a = tries.x 0 0 b → a = b := by decide +kernel
      exact this a (by simpa using ha) b (by simpa using hb) h
  · unfold Shown.Inner; decide +kernel
  · constructor
    · rw [hN]; decide +kernel
    · rw [hN]
      show ∀ i < 1, ∀ j < 4, ∀ k < 11, _
      intro i hi j hj k hk
      simp only [tTr, List.cons.injEq, Msg.pt.injEq, true_and, and_true]
      revert k j i
      decide +kernel
    · rw [hN]
      intro i hi j hj k hk
      refine ⟨ch (tries.y i) (tries.z i j) (tries.x i j k), ?_⟩
      revert k j i
      decide +kernel

end Ex34

end Zkp
