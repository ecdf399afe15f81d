/- Properties C32-C34, C72: Bulletproofs. -/
import Verif.Proof.BulletproofsComplete
import Verif.Spec.Lin
import Verif.Proof.F17

set_option linter.unusedSectionVars false
set_option linter.unusedSimpArgs false

namespace Zkp

open Bp

variable {F : Type} [Field F] [DecidableEq F]

/-! ### C32: the matrices -/

/-- What the statement of C32 says about one row: the dense row gives, for every assignment of the
variables, the value of the linear combination. -/
def C32_row (numInputs numAux : Nat) (l : LC F) : Prop :=
  ∀ inputs aux : List F, inputs.length = numInputs → aux.length = numAux →
    dot (denseRow numInputs (numInputs + numAux) l) (inputs ++ aux) =
      l.eval fun v => match v with
        | .input i => inputs.getD i 0
        | .aux i => aux.getD i 0

/-- The combination `x + x` built with the public operators. -/
def twice : LC F := (LC.zero.addVar (.aux 0)).addVar (.aux 0)

/-- C32 is violated over every field: `x + x` is stored as `x`. -/
theorem C32_violated : (twice : LC F).Built ∧ ¬ C32_row 1 1 (twice : LC F) := by
  refine ⟨.addVar _ (.addVar _ .zero), fun h => ?_⟩
  have h1 := h [1] [1] rfl rfl
  have e : (twice : LC F) = [(.aux 0, 1), (.aux 0, 1)] := rfl
  rw [e] at h1
  simp [denseRow, Groth16.pos, LC.eval, dot] at h1

/-- C32 for combinations that mention no variable twice and only allocated ones; and the maps the
verifier reads contain the entries of the matrices.  Missing: combinations with a repeated variable,
for which it fails. -/
theorem C32_partial (numInputs numAux : Nat) (l : LC F) (hr : ∀ t ∈ l, match t.1 with
      | .input i => i < numInputs | .aux i => i < numAux) (hn : l.NoRepeat) :
    C32_row numInputs numAux l := by
  intro inputs aux hi ha
  subst hi; subst ha
  refine (denseRow_dot ⟨true, inputs, aux, []⟩ l hr hn).trans ?_
  congr 1

example : LC.NoRepeat ([(.input 0, 3), (.aux 1, 5)] : LC (F17)) ∧
    ∀ t ∈ ([(.input 0, 3), (.aux 1, 5)] : LC (F17)), match t.1 with
      | .input i => i < 1 | .aux i => i < 2 := by
  constructor
  · unfold LC.NoRepeat; decide
  · intro t ht
    simp only [List.mem_cons, List.not_mem_nil, or_false] at ht
    rcases ht with rfl | rfl <;> simp

/-- The terms that are not followed by another term of the same variable. -/
def lastTerms : LC F → LC F
  | [] => []
  | t :: l => if t.1 ∈ l.map Prod.fst then lastTerms l else t :: lastTerms l

private theorem set_absorbed (n : Nat) (v : Index) (x : F) (l : LC F) (hv : v ∈ l.map Prod.fst) (row : List F) :
    l.foldl (fun row t => row.set (Groth16.pos n t.1) t.2) (row.set (Groth16.pos n v) x) =
      l.foldl (fun row t => row.set (Groth16.pos n t.1) t.2) row := by
  induction l generalizing row with
  | nil => simp at hv
  | cons s l ih =>
    rw [List.foldl_cons, List.foldl_cons]
    by_cases hp : Groth16.pos n v = Groth16.pos n s.1
    · rw [hp, List.set_set]
    · rw [List.set_comm _ _ hp]
      refine ih ?_ _
      rw [List.map_cons, List.mem_cons] at hv
      rcases hv with hv | hv
      · exact absurd (by rw [hv]) hp
      · exact hv

private theorem mem_lastTerms (l : LC F) (t : Index × F) (h : t ∈ lastTerms l) : t ∈ l := by
  induction l with
  | nil => exact h
  | cons s l ih =>
    unfold lastTerms at h
    split at h
    · exact List.mem_cons_of_mem _ (ih h)
    · rcases List.mem_cons.1 h with rfl | h
      · exact List.mem_cons_self
      · exact List.mem_cons_of_mem _ (ih h)

private theorem lastTerms_noRepeat (l : LC F) : (lastTerms l).NoRepeat := by
  induction l with
  | nil => exact List.nodup_nil
  | cons s l ih =>
    unfold lastTerms
    split
    · exact ih
    · next h =>
      refine List.nodup_cons.2 ⟨fun hc => h ?_, ih⟩
      rw [List.mem_map] at hc ⊢
      obtain ⟨t, ht, e⟩ := hc
      exact ⟨t, mem_lastTerms l t ht, e⟩

/-- What the matrices hold for every combination of allocated variables: each variable with the coefficient of its last
term. -/
theorem C32_actual (numInputs numAux : Nat) (l : LC F) (hr : ∀ t ∈ l, match t.1 with
      | .input i => i < numInputs | .aux i => i < numAux) (inputs aux : List F) (hi : inputs.length = numInputs)
    (ha : aux.length = numAux) :
    dot (denseRow numInputs (numInputs + numAux) l) (inputs ++ aux) =
      (lastTerms l).eval fun v => match v with
        | .input i => inputs.getD i 0
        | .aux i => aux.getD i 0 := by
  rw [← C32_partial numInputs numAux (lastTerms l) (fun t ht => hr t (mem_lastTerms l t ht)) (lastTerms_noRepeat l)
    inputs aux hi ha]
  congr 1
  unfold denseRow
  generalize List.replicate (numInputs + numAux) (0 : F) = row
  clear hr
  induction l generalizing row with
  | nil => rfl
  | cons t l ih =>
    unfold lastTerms
    split
    · next h => rw [List.foldl_cons, set_absorbed numInputs t.1 t.2 l h row]; exact ih row
    · rw [List.foldl_cons, List.foldl_cons]; exact ih _

/-- `3 x + 5 y + 4 x` is stored as `5 y + 4 x`. -/
example : dot (denseRow 1 3 ([(.aux 0, 3), (.aux 1, 5), (.aux 0, 4)] : LC F17)) ([1] ++ [2, 7]) = 5 * 7 + 4 * 2 := by
  rw [C32_actual 1 2 [(.aux 0, 3), (.aux 1, 5), (.aux 0, 4)] (by
    intro t ht
    simp only [List.mem_cons, List.not_mem_nil, or_false] at ht
    rcases ht with rfl | rfl | rfl <;> simp) [1] [2, 7] rfl rfl]
  decide

/-- The sum of the coefficients of a variable. -/
def varCoeff (l : LC F) (v : Index) : F := ((l.filter fun t => t.1 = v).map Prod.snd).sum

private theorem eval_single (l : LC F) (v : Index) : l.eval (fun w => if w = v then 1 else 0) = varCoeff l v := by
  unfold LC.eval varCoeff
  induction l with
  | nil => rfl
  | cons t l ih =>
    simp only [mul_ite, mul_one, mul_zero] at ih
    by_cases h : t.1 = v <;> simp [h, ih]

private theorem eval_varCoeff (S : Finset Index) (ρ : Index → F) (l : LC F) (hS : ∀ t ∈ l, t.1 ∈ S) :
    l.eval ρ = ∑ v ∈ S, varCoeff l v * ρ v := by
  unfold LC.eval
  induction l with
  | nil => simp [varCoeff]
  | cons t l ih =>
    have e : ∀ v, varCoeff (t :: l) v = (if v = t.1 then t.2 else 0) + varCoeff l v := by
      intro v
      unfold varCoeff
      by_cases h : t.1 = v
      · simp [h]
      · simp [h, Ne.symm h]
    rw [List.map_cons, List.sum_cons, ih fun t ht => hS t (List.mem_cons_of_mem _ ht)]
    simp only [e, add_mul, Finset.sum_add_distrib, ite_mul, zero_mul]
    rw [Finset.sum_ite_eq' S t.1 fun v => t.2 * ρ v, if_pos (hS t List.mem_cons_self)]

/-- Exactly when a row is right: when for every variable the terms before its last one cancel. -/
theorem C32_exact (numInputs numAux : Nat) (l : LC F) (hr : ∀ t ∈ l, match t.1 with
      | .input i => i < numInputs | .aux i => i < numAux) :
    C32_row numInputs numAux l ↔ ∀ v, varCoeff l v = varCoeff (lastTerms l) v := by
  constructor
  · intro h v
    by_cases hv : match v with | .input i => i < numInputs | .aux i => i < numAux
    · have hw : ∀ l' : LC F, (∀ t ∈ l', match t.1 with | .input i => i < numInputs | .aux i => i < numAux) →
          (l'.eval fun w => match w with
            | .input i => ((List.range numInputs).map fun i => if Index.input i = v then (1 : F) else 0).getD i 0
            | .aux i => ((List.range numAux).map fun i => if Index.aux i = v then (1 : F) else 0).getD i 0) = varCoeff l' v := by
        intro l' hl'
        rw [← eval_single]
        unfold LC.eval
        congr 1
        refine List.map_congr_left fun t ht => ?_
        have := hl' t ht
        rcases t with ⟨i | i, c⟩
        · have hi : i < numInputs := this
          simp [List.getD_eq_getElem?_getD, hi]
        · have hi : i < numAux := this
          simp [List.getD_eq_getElem?_getD, hi]
      have h1 := h ((List.range numInputs).map fun i => if Index.input i = v then (1 : F) else 0)
        ((List.range numAux).map fun i => if Index.aux i = v then (1 : F) else 0) (by simp) (by simp)
      rw [C32_actual numInputs numAux l hr _ _ (by simp) (by simp), hw l hr,
        hw (lastTerms l) fun t ht => hr t (mem_lastTerms l t ht)] at h1
      exact h1.symm
    · have hz : ∀ l' : LC F, (∀ t ∈ l', match t.1 with | .input i => i < numInputs | .aux i => i < numAux) →
          varCoeff l' v = 0 := by
        intro l' hl'
        unfold varCoeff
        rw [List.filter_eq_nil_iff.2, List.map_nil, List.sum_nil]
        intro t ht
        have := hl' t ht
        simp only [decide_eq_true_eq]
        rintro rfl
        exact hv this
      rw [hz l hr, hz _ fun t ht => hr t (mem_lastTerms l t ht)]
  · intro h inputs aux hi ha
    rw [C32_actual numInputs numAux l hr inputs aux hi ha,
      eval_varCoeff ((l.map Prod.fst).toFinset) _ l (by intro t ht; simp only [List.mem_toFinset, List.mem_map]; exact ⟨t, ht, rfl⟩),
      eval_varCoeff ((l.map Prod.fst).toFinset) _ (lastTerms l) (by
        intro t ht
        simp only [List.mem_toFinset, List.mem_map]
        exact ⟨t, mem_lastTerms l t ht, rfl⟩)]
    simp only [h]

/-- `x - x + 2 x` is stored rightly, `x + x` is not. -/
example : C32_row 1 1 ([(.aux 0, 1), (.aux 0, -1), (.aux 0, 2)] : LC F17) := by
  refine (C32_exact 1 1 _ ?_).2 fun v => ?_
  · intro t ht
    simp only [List.mem_cons, List.not_mem_nil, or_false] at ht
    rcases ht with rfl | rfl | rfl <;> simp
  · by_cases h : Index.aux 0 = v <;> simp [varCoeff, lastTerms, h]

/-- C32, the verifier's side: its sparse maps hold the entries of the prover's matrices. -/
theorem C32_maps (m : List (List F)) (i j : Nat) :
    (matrixToMap m (i, j)).getD 0 = (m.getD i []).getD j 0 := matrixToMap_get m i j

/-! ### C33: the inner-product argument -/

section
variable {G : Type} [AddCommGroup G] [Module F G] [DecidableEq G]

/-- C33.  For all generators, all vectors `a`, `b` of the same power-of-two length, every challenge
function without zeros and every transcript so far: the prover of the inner-product argument succeeds
and the verifier accepts its proof for the commitment `Σ aᵢgᵢ + Σ bᵢhᵢ + ⟨a,b⟩u`. -/
theorem C33_complete (ch : Oracle F G) (hch : ∀ t, ch t ≠ 0) (tr : Transcript F G) (g h : List G) (u : G)
    (k : Nat) (a b : List F) (ha : a.length = 2 ^ k) (hb : b.length = 2 ^ k) (hg : 2 ^ k ≤ g.length)
    (hh : 2 ^ k ≤ h.length) :
    ∃ p, ippProve ch tr g h u (msm g a + msm h b + (List.zipWith (· * ·) a b).sum • u) a b = some p ∧
      ippVerify ch tr g h u (msm g a + msm h b + (List.zipWith (· * ·) a b).sum • u) p = some true := by
  have hk : Nat.log2 a.length = k := by rw [ha, Nat.log2_two_pow]
  obtain ⟨p, hp⟩ := ippLoop_some ch hch u k
    (tr ++ ippStart a.length u (msm g a + msm h b + dot a b • u) g h) g h a b ha hb hg hh
  refine ⟨p, ?_, ?_⟩
  · unfold ippProve
    simp only
    rw [hk, if_neg (by rw [ha, hb]; simp)]
    exact hp
  · refine ippProve_verify ch tr g h u _ a b p rfl (by omega) (by omega) ?_
    unfold ippProve
    simp only
    rw [hk, if_neg (by rw [ha, hb]; simp)]
    exact hp

/-- C33 without the assumption that all challenges are invertible: whatever the challenge function,
a proof that the prover outputs is accepted. -/
theorem C33_accepted (ch : Oracle F G) (tr : Transcript F G) (g h : List G) (u : G)
    (a b : List F) (hg : a.length ≤ g.length) (hh : a.length ≤ h.length) (p : IppProof F G)
    (hp : ippProve ch tr g h u (msm g a + msm h b + (List.zipWith (· * ·) a b).sum • u) a b = some p) :
    ippVerify ch tr g h u (msm g a + msm h b + (List.zipWith (· * ·) a b).sum • u) p = some true :=
  ippProve_verify ch tr g h u _ a b p rfl hg hh hp

end

/-- A challenge function without zeros and vectors of length four. -/
example := C33_complete (F := F17) (G := F17) (fun t => if t.length % 2 = 0 then 3 else 5)
    (by intro t; split <;> decide) [] [1, 2, 3, 4] [5, 6, 7, 8] 9 2 [2, 4, 6, 8] [1, 0, 0, 7] rfl rfl
    (by decide) (by decide)

/-! ### C34: soundness -/

section
variable {G : Type} [AddCommGroup G] [Module F G] [DecidableEq G]

/-- The generators `create_random_proof` hands out for a circuit (arithmetic_circuit.rs:273-299). -/
def gensOf (cs : CS F) (gv hv : List G) (g h u : G) : Generators G :=
  { g_vec_N := gv, h_vec_N := hv, g, h, u
    n := cs.constraints.length
    N := nextPow2 (max cs.constraints.length cs.aux.length)
    k := cs.inputs.length
    n_w := cs.aux.length }

/-- The circuit with the single constraint `1 · 1 = 0`. -/
def impossible : CS F := ⟨true, [1], [], [⟨[(.input 0, 1)], [(.input 0, 1)], []⟩]⟩

/-- C34 is violated by every circuit: for all public inputs (also those for which no satisfying
assignment exists), all generators and every challenge function that gives a nonzero `y`, some proof
is accepted.  The proof fixes `l_x`, `r_x` and the commitments after seeing the challenges: the verifier
never compares `⟨l_x, r_x⟩` with `t_x`, nor `IPP_P` with `P`. -/
theorem C34_forgery (ch : Oracle F G) (cs : CS F) (hc : cs.constraints ≠ []) (publicInputs : List F)
    (hi : cs.inputs.length = publicInputs.length + 1) (gv hv : List G) (g h u : G)
    (hv' : hv.length = nextPow2 (max cs.constraints.length cs.aux.length))
    (hy : ∀ t, ch (t ++ [.chal "y"]) ≠ 0) :
    ∃ p, verifyProof ch (gensOf cs gv hv g h u) p (toCircuit cs) publicInputs = some true :=
  forge_accepted ch (gensOf cs gv hv g h u) (toCircuit cs) publicInputs
    (by simpa [gensOf, List.length_eq_zero_iff] using hc) (by simpa [gensOf] using hi)
    (by simp only [gensOf]; omega) (hy _)

/-- C34 is violated: the circuit `1 · 1 = 0` has no satisfying assignment, but has accepted proofs. -/
theorem C34_violated (ch : Oracle F G) (hy : ∀ t, ch (t ++ [.chal "y"]) ≠ 0) (g1 h1 g h u : G) :
    (¬ ∃ w : Index → F, w .one = 1 ∧ (impossible : CS F).Sat w) ∧
    ∃ p, verifyProof ch (gensOf (impossible : CS F) [g1] [h1] g h u) p (toCircuit impossible) [] = some true := by
  constructor
  · rintro ⟨w, h1, h2⟩
    have := h2 _ (List.mem_singleton.mpr rfl)
    have h1 : w (.input 0) = 1 := h1
    simp [R1C.Holds, LC.eval, h1] at this
  · exact C34_forgery ch impossible (by simp [impossible]) [] rfl [g1] [h1] g h u
      (by simp [impossible, nextPow2]) hy

/-- C34, what is established: `verify_proof` accepts exactly when the vectors exist, the inner-product
proof is accepted for `IPP_P`, and the two group equations hold.  Missing: that these imply a satisfying
assignment, which is false. -/
theorem C34_partial (ch : Oracle F G) (gens : Generators G) (p : Bp.Proof F G) (circuit : R1csCircuit F)
    (publicInputs : List F) :
    let tr := startTr gens circuit (1 :: publicInputs) p.A_I p.A_O p.A_W p.S ++ [.chal "y"]
    let tr' := tr ++ [.chal "z"]
    let tr'' := tr' ++ tTr p ++ [.chal "x"]
    let tr''' := tr'' ++ xTr p ++ [.chal "x_1"]
    verifyProof ch gens p circuit publicInputs = some true ↔
      ∃ v, vectors gens circuit (1 :: publicInputs) (ch tr) (ch tr') = some v ∧
        gens.N ≤ gens.h_vec_N.length ∧
        ippVerify ch tr''' gens.g_vec_N gens.h_vec_N (ch tr''' • gens.u) p.IPP_P p.IPP = some true ∧
        checkT gens v p (ch tr'') ∧ checkP gens v p (ch tr'') := by
  intro tr tr' tr'' tr'''
  constructor
  · intro h
    unfold verifyProof at h
    simp only at h
    split at h
    · cases h
    rename_i v hv
    split at h
    · cases h
    rename_i hN
    split at h
    · cases h
    · cases h
    rename_i hipp
    split at h
    · rename_i hT
      simp only [Option.some.injEq, decide_eq_true_eq] at h
      exact ⟨v, hv, by omega, hipp, hT, h⟩
    · cases h
  · rintro ⟨v, hv, hN, hipp, hT, hP⟩
    exact verifyProof_intro ch gens p circuit publicInputs _ _ _ _ _ v rfl rfl rfl rfl rfl hv hN hipp hT hP

end

/-- The hypotheses of the forgery hold for a challenge function that is not constant. -/
example : (∀ t : Transcript (F17) (F17),
    (fun t => if t.length % 2 = 0 then (3 : F17) else 5) (t ++ [.chal "y"]) ≠ 0) ∧
    (impossible : CS (F17)).constraints ≠ [] ∧
    (impossible : CS (F17)).inputs.length = ([] : List (F17)).length + 1 := by
  refine ⟨?_, by simp [impossible], rfl⟩
  intro t
  dsimp only
  split <;> decide

/-! ### C72: completeness -/

section
variable {G : Type} [AddCommGroup G] [Module F G] [DecidableEq G]

theorem dot_two (row s w : List F) :
    dot row (s ++ w) = ∑ j ∈ Finset.range s.length, row.getD j 0 * s.getD j 0 +
      ∑ j ∈ Finset.range w.length, row.getD (j + s.length) 0 * w.getD j 0 := by
  rw [dot_comm, dot_eq_sum' (s ++ w) row (s.length + w.length) (by simp), Finset.sum_range_add]
  congr 1
  · apply Finset.sum_congr rfl
    intro j hj
    rw [mul_comm, List.getD_append _ _ _ _ (Finset.mem_range.mp hj)]
  · apply Finset.sum_congr rfl
    intro j hj
    rw [mul_comm, List.getD_append_right _ _ _ _ (by omega), Nat.add_sub_cancel_left, add_comm]

theorem vmpt_ok (cs : CS F) (f : R1C F → LC F) :
    vectorMatrixProductT (cs.inputs ++ cs.aux) (cs.constraints.map fun k =>
      denseRow cs.inputs.length (cs.inputs.length + cs.aux.length) (f k)) =
    some (cs.constraints.map fun k =>
      dot (denseRow cs.inputs.length (cs.inputs.length + cs.aux.length) (f k)) (cs.inputs ++ cs.aux)) := by
  unfold vectorMatrixProductT
  rw [if_pos (by simp), List.map_map]
  rfl

theorem row_entry (cs : CS F) (f : R1C F → LC F) (i : Nat) :
    (cs.constraints.map fun k => dot (denseRow cs.inputs.length (cs.inputs.length + cs.aux.length) (f k))
      (cs.inputs ++ cs.aux)).getD i 0 = if i < cs.constraints.length then
      ∑ j ∈ Finset.range cs.inputs.length, ent (cs.constraints.map fun k =>
        denseRow cs.inputs.length (cs.inputs.length + cs.aux.length) (f k)) i j * cs.inputs.getD j 0 +
      ∑ j ∈ Finset.range cs.aux.length, ent (cs.constraints.map fun k =>
        denseRow cs.inputs.length (cs.inputs.length + cs.aux.length) (f k)) i (j + cs.inputs.length) *
          cs.aux.getD j 0 else 0 := by
  split
  · rename_i h
    rw [List.getD_eq_getElem _ _ (by simpa using h), List.getElem_map, dot_two]
    unfold ent
    rw [List.getD_eq_getElem _ _ (by simpa using h), List.getElem_map]
  · rename_i h
    rw [List.getD_eq_default _ _ (by simpa using h)]

/-- C72.  For every circuit whose combinations mention no variable twice and every satisfying
assignment, all generators of the right number, all blinding values and every challenge function: what
the prover outputs is accepted for the circuit's public inputs. -/
theorem bulletproofs_complete (ch : Oracle F G) (cs : CS F) (publicInputs : List F)
    (hone : cs.inputs = 1 :: publicInputs)
    (hnr : ∀ k ∈ cs.constraints, k.a.NoRepeat ∧ k.b.NoRepeat ∧ k.c.NoRepeat)
    (hsat : cs.Sat cs.witness) (gv hv : List G) (g h u : G) (rnd : Rand F)
    (hgl : gv.length = nextPow2 (max cs.constraints.length cs.aux.length))
    (hhl : hv.length = nextPow2 (max cs.constraints.length cs.aux.length))
    (hsL : rnd.sL.length = max cs.constraints.length cs.aux.length)
    (hsR : rnd.sR.length = max cs.constraints.length cs.aux.length)
    (gens : Generators G) (circuit : R1csCircuit F) (p : Bp.Proof F G)
    (hp : createProof ch cs gv hv g h u rnd = some (gens, circuit, p)) :
    gens = gensOf cs gv hv g h u ∧ circuit = toCircuit cs ∧
      verifyProof ch gens p circuit publicInputs = some true := by
  unfold createProof at hp
  split at hp
  · cases hp
  rename_i hr
  have hr : Groth16.inRange cs = true := by simpa using hr
  simp only at hp
  have hta : toAssignment (toCircuit cs) cs.inputs cs.aux = some
      ⟨cs.constraints.map fun k => dot (denseRow cs.inputs.length (cs.inputs.length + cs.aux.length) k.a)
        (cs.inputs ++ cs.aux),
       cs.constraints.map fun k => dot (denseRow cs.inputs.length (cs.inputs.length + cs.aux.length) k.b)
        (cs.inputs ++ cs.aux),
       cs.constraints.map fun k => dot (denseRow cs.inputs.length (cs.inputs.length + cs.aux.length) k.c)
        (cs.inputs ++ cs.aux), cs.inputs, cs.aux⟩ := by
    unfold toAssignment toCircuit
    simp only
    rw [vmpt_ok cs R1C.a, vmpt_ok cs R1C.b, vmpt_ok cs R1C.c]
  rw [hta] at hp
  simp only [List.length_map] at hp
  rw [Option.map_eq_some_iff] at hp
  obtain ⟨p', hp', he⟩ := hp
  simp only [Prod.mk.injEq] at he
  obtain ⟨rfl, rfl, rfl⟩ := he
  refine ⟨rfl, rfl, ?_⟩
  have hval : ∀ k ∈ cs.constraints, ∀ l : LC F, (l = k.a ∨ l = k.b ∨ l = k.c) →
      dot (denseRow cs.inputs.length (cs.inputs.length + cs.aux.length) l) (cs.inputs ++ cs.aux) =
        l.eval cs.witness := by
    intro k hk l hl
    have hk' := List.all_eq_true.mp hr k hk
    apply denseRow_dot
    · intro t ht
      have := List.all_eq_true.mp hk' t (by
        simp only [List.mem_append]
        rcases hl with rfl | rfl | rfl
        · exact .inl (.inl ht)
        · exact .inl (.inr ht)
        · exact .inr ht)
      rcases t with ⟨i | i, c⟩ <;> simpa using this
    · rcases hl with rfl | rfl | rfl
      · exact (hnr k hk).1
      · exact (hnr k hk).2.1
      · exact (hnr k hk).2.2
  refine prove_verify ch _ (toCircuit cs) _ rnd p' publicInputs ?_ ?_ ?_ ?_ ?_ ?_ ?_ rfl rfl rfl ?_ ?_ ?_ ?_ ?_ ?_ hp'
  · exact hone
  · simp
  · simp
  · rfl
  · rfl
  · exact hgl
  · exact hhl
  · simp only [List.length_map]; exact row_entry cs R1C.a
  · simp only [List.length_map]; exact row_entry cs R1C.b
  · simp only [List.length_map]; exact row_entry cs R1C.c
  · intro i hi
    simp only [List.length_map] at hi
    simp only
    rw [List.getD_eq_getElem _ _ (by simpa using hi), List.getD_eq_getElem _ _ (by simpa using hi),
      List.getD_eq_getElem _ _ (by simpa using hi)]
    simp only [List.getElem_map]
    have hm := List.getElem_mem hi
    rw [hval _ hm _ (.inl rfl), hval _ hm _ (.inr (.inl rfl)), hval _ hm _ (.inr (.inr rfl))]
    exact hsat _ hm
  · simpa using hsL
  · simpa using hsR

/-- C72, the prover succeeds: for a circuit with at least one constraint whose indices are all
allocated, and a challenge function without zeros. -/
theorem bulletproofs_prover_succeeds (ch : Oracle F G) (hch : ∀ t, ch t ≠ 0) (cs : CS F)
    (hc : cs.constraints ≠ []) (hr : Groth16.inRange cs = true) (gv hv : List G) (g h u : G) (rnd : Rand F)
    (hgl : gv.length = nextPow2 (max cs.constraints.length cs.aux.length))
    (hhl : hv.length = nextPow2 (max cs.constraints.length cs.aux.length)) :
    ∃ r, createProof ch cs gv hv g h u rnd = some r := by
  unfold createProof
  rw [if_neg (by simp [hr])]
  simp only
  have hta : toAssignment (toCircuit cs) cs.inputs cs.aux = some
      ⟨cs.constraints.map fun k => dot (denseRow cs.inputs.length (cs.inputs.length + cs.aux.length) k.a)
        (cs.inputs ++ cs.aux),
       cs.constraints.map fun k => dot (denseRow cs.inputs.length (cs.inputs.length + cs.aux.length) k.b)
        (cs.inputs ++ cs.aux),
       cs.constraints.map fun k => dot (denseRow cs.inputs.length (cs.inputs.length + cs.aux.length) k.c)
        (cs.inputs ++ cs.aux), cs.inputs, cs.aux⟩ := by
    unfold toAssignment toCircuit
    simp only
    rw [vmpt_ok cs R1C.a, vmpt_ok cs R1C.b, vmpt_ok cs R1C.c]
  rw [hta]
  simp only [List.length_map]
  have hle := le_nextPow2 (max cs.constraints.length cs.aux.length)
  unfold prove
  simp only [List.length_map]
  rw [if_neg (by simp), if_neg (by omega)]
  split
  · rename_i hnone
    exfalso
    unfold proverPolys at hnone
    simp only [List.length_map] at hnone
    rw [if_neg (by
        rw [List.any_eq_true]
        rintro ⟨w, hw, h0⟩
        obtain ⟨i, -, rfl⟩ := List.mem_map.mp hw
        exact pow_ne_zero i (hch _) (by simpa using h0)),
      if_neg (by simpa [List.length_eq_zero_iff] using hc)] at hnone
    cases hnone
  · rename_i l r hpoly
    obtain ⟨L, R, O, V, -, -, -, -, l0, -, -, -, -, -, r0, -⟩ := proverPolys_spec hpoly
    have hll : ∀ x, (l.eval x).length = nextPow2 (max cs.constraints.length cs.aux.length) := by
      intro x; rw [eval_length, l0]; simp
    have hrl : ∀ x, (r.eval x).length = nextPow2 (max cs.constraints.length cs.aux.length) := by
      intro x; rw [eval_length, r0]; simp
    have hipp : ∀ tr u P x, ∃ q, ippProve ch tr gv hv u P (l.eval x) (r.eval x) = some q := by
      intro tr u P x
      unfold ippProve
      simp only
      have hk : Nat.log2 (l.eval x).length = Nat.clog 2 (max cs.constraints.length cs.aux.length) := by
        rw [hll, nextPow2, Nat.log2_two_pow]
      rw [hk, if_neg (by rw [hll, hrl]; simp [nextPow2])]
      exact ippLoop_some ch hch u _ _ gv hv _ _ (hll x) (hrl x) (by rw [hgl]; rfl) (by rw [hhl]; rfl)
    obtain ⟨q, hq⟩ := hipp _ _ _ _
    rw [hq]
    exact ⟨_, rfl⟩

end

namespace BpEx

/-- `x · x = 9` with `x = 3`. -/
def cs : CS F17 := ⟨true, [1, 9], [3], [⟨[(.aux 0, 1)], [(.aux 0, 1)], [(.input 1, 1)]⟩]⟩

theorem cs_sat : cs.Sat cs.witness := by
  intro k hk
  have : k = ⟨[(.aux 0, 1)], [(.aux 0, 1)], [(.input 1, 1)]⟩ := by simpa [cs] using hk
  subst this
  simp [R1C.Holds, LC.eval, CS.witness, cs]
  decide

/-- Some blinding values. -/
def rnd : Rand F17 := ⟨[1], [2], 3, 4, 5, 6, 7, 8, 9, 10, 11, 12, 13, 14⟩

/-- A challenge function. -/
def ch : Oracle F17 F17 := fun t => if t.length % 2 = 0 then 3 else 5

/-- All hypotheses of both theorems hold for this circuit: an accepted proof exists. -/
example : ∃ gens circuit p, createProof ch cs [4] [5] 6 7 8 rnd = some (gens, circuit, p) ∧
    verifyProof ch gens p circuit [9] = some true := by
  have h1 : nextPow2 (max cs.constraints.length cs.aux.length) = 1 := by decide
  obtain ⟨⟨gens, circuit, p⟩, hr⟩ := bulletproofs_prover_succeeds ch (by intro t; unfold ch; split <;> decide)
    cs (by simp [cs]) (by decide) [4] [5] 6 7 8 rnd (by rw [h1]; rfl) (by rw [h1]; rfl)
  exact ⟨gens, circuit, p, hr, (bulletproofs_complete ch cs [9] rfl (by
    intro k hk
    have : k = ⟨[(.aux 0, 1)], [(.aux 0, 1)], [(.input 1, 1)]⟩ := by simpa [cs] using hk
    subst this
    simp [LC.NoRepeat]) cs_sat [4] [5] 6 7 8 rnd (by rw [h1]; rfl) (by rw [h1]; rfl) (by decide) (by decide)
    gens circuit p hr).2.2⟩

end BpEx

end Zkp
