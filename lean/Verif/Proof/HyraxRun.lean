/- One layer of Hyrax: the verifier accepts what the prover makes. -/
import Verif.Proof.HyraxLayer
import Verif.Props.HyraxSound
import Verif.Props.CommitProofs

set_option linter.unusedSectionVars false

namespace Zkp.Hx

open Zkp.Ml Zkp.Spartan Zkp.Gkr Zkp.Cp Zkp.Sc Polynomial

variable {F : Type} [Field F] {G : Type} [AddCommGroup G] [Module F G] [DecidableEq F] [DecidableEq G]

/-! ### The polynomials in one vector -/

theorem flatten_getD (d : Nat) (rest : List F) : ∀ (L : List (List F)), (∀ p ∈ L, p.length = d) → ∀ t i, t < L.length → i < d →
    (L.flatten ++ rest).getD (d * t + i) 0 = (L.getD t []).getD i 0
  | [], _, t, i, ht, _ => absurd ht (by simp)
  | p :: L, h, 0, i, _, hi => by
    have hp := h p (by simp)
    simp only [List.flatten_cons, List.append_assoc, Nat.mul_zero, Nat.zero_add, List.getD_cons_zero]
    rw [List.getD_append _ _ _ _ (by omega)]
  | p :: L, h, t + 1, i, ht, hi => by
    have hp := h p (by simp)
    have ih := flatten_getD d rest L (fun q hq => h q (by simp [hq])) t i (by simpa using ht) hi
    simp only [List.flatten_cons, List.append_assoc, List.getD_cons_succ]
    rw [show d * (t + 1) + i = p.length + (d * t + i) by rw [hp]; ring, app_hi, ih]

theorem flatten_len (d : Nat) : ∀ (L : List (List F)), (∀ p ∈ L, p.length = d) → L.flatten.length = d * L.length
  | [], _ => by simp
  | p :: L, h => by
    have := flatten_len d L fun q hq => h q (by simp [hq])
    simp only [List.flatten_cons, List.length_append, List.length_cons, this, h p (by simp)]; ring

theorem list4 (p : List F) (h : p.length = 4) : p = [p.getD 0 0, p.getD 1 0, p.getD 2 0, p.getD 3 0] := by
  match p, h with
  | [_, _, _, _], _ => rfl

theorem list3 (p : List F) (h : p.length = 3) : p = [p.getD 0 0, p.getD 1 0, p.getD 2 0] := by
  match p, h with
  | [_, _, _], _ => rfl

theorem getD_mem {α : Type} (L : List α) (t : Nat) (d : α) (h : t < L.length) : L.getD t d ∈ L := by
  rw [List.getD_eq_getElem _ _ h]; exact List.getElem_mem h

/-- The coefficients of round `t` are the polynomial of round `t`. -/
theorem coef_pie (A B : List (List F)) (rest : List F) (hA : ∀ p ∈ A, p.length = 4) (hB : ∀ p ∈ B, p.length = 3) (t : Nat)
    (ht : t < A.length + B.length) :
    coef (fun k => ((A ++ B).flatten ++ rest).getD k 0) A.length t = (A ++ B).getD t [] := by
  unfold coef
  split
  · rename_i h
    have e : ∀ i < 4, ((A ++ B).flatten ++ rest).getD (4 * t + i) 0 = (A.getD t []).getD i 0 := fun i hi => by
      rw [List.flatten_append, List.append_assoc]; exact flatten_getD 4 _ A hA t i h hi
    rw [app_lo _ _ _ _ h, list4 _ (hA _ (getD_mem A t [] h))]
    have e0 := e 0 (by omega)
    simp only [Nat.add_zero] at e0
    simp only [e0, e 1 (by omega), e 2 (by omega), e 3 (by omega), ← list4 _ (hA _ (getD_mem A t [] h))]
  · rename_i h
    obtain ⟨s, rfl⟩ : ∃ s, t = A.length + s := ⟨t - A.length, by omega⟩
    have hs : s < B.length := by omega
    have e : ∀ i < 3, ((A ++ B).flatten ++ rest).getD (A.length + 3 * (A.length + s) + i) 0 = (B.getD s []).getD i 0 :=
      fun i hi => by
        rw [List.flatten_append, List.append_assoc,
          show A.length + 3 * (A.length + s) + i = A.flatten.length + (3 * s + i) by rw [flatten_len 4 A hA]; ring, app_hi]
        exact flatten_getD 3 _ B hB s i hs hi
    rw [app_hi, list3 _ (hB _ (getD_mem B s [] hs))]
    have e0 := e 0 (by omega)
    simp only [Nat.add_zero] at e0
    simp only [e0, e 1 (by omega), e 2 (by omega), ← list3 _ (hB _ (getD_mem B s [] hs))]

theorem roundsOk_append {ps' : List (List F)} {rs' : List F} {mid final : F} :
    ∀ {ps : List (List F)} {rs : List F} {claim : F}, RoundsOk ps rs claim mid → RoundsOk ps' rs' mid final →
      RoundsOk (ps ++ ps') (rs ++ rs') claim final
  | [], [], _, h, h' => by cases h; exact h'
  | _ :: _, _ :: _, _, h, h' => ⟨h.1, roundsOk_append h.2 h'⟩
  | [], _ :: _, _, h, _ => h.elim
  | _ :: _, [], _, h, _ => h.elim

/-- The round checks one by one. -/
theorem roundsOk_each {final : F} : ∀ (ps : List (List F)) (rs : List F) (claim : F), RoundsOk ps rs claim final → ps ≠ [] →
    polyEval (ps.getD 0 []) 0 + polyEval (ps.getD 0 []) 1 = claim ∧
      (∀ t, t + 1 < ps.length → polyEval (ps.getD (t + 1) []) 0 + polyEval (ps.getD (t + 1) []) 1 =
        polyEval (ps.getD t []) (rs.getD t 0)) ∧
      polyEval (ps.getD (ps.length - 1) []) (rs.getD (ps.length - 1) 0) = final
  | [], _, _, _, h => absurd rfl h
  | _ :: _, [], _, h, _ => h.elim
  | [p], [r], claim, h, _ => by
    obtain ⟨h1, h2⟩ := h
    exact ⟨h1, by simp, h2⟩
  | [p], r :: r' :: rs, claim, h, _ => h.2.elim
  | p :: q :: ps, r :: rs, claim, h, _ => by
    obtain ⟨h1, h2⟩ := h
    obtain ⟨a, b, c⟩ := roundsOk_each (q :: ps) rs _ h2 (by simp)
    refine ⟨h1, fun t ht => ?_, by simpa using c⟩
    cases t with
    | zero => exact a
    | succ t => exact b t (by simpa using ht)

/-! ### The last part -/

theorem gen_commit (gs : List G) (h : G) (a : F) (s : F) : commitVec gs [a] h s = a • gs.headD 0 + s • h := by
  cases gs <;> simp [commitVec, msm]

theorem jVec_dot (rou : List F) (m : Mat F) (K n : Nat) (v : Nat → F) (claim : F)
    (h : ∀ r < K + 1, ∑ k ∈ Finset.range n, m.val r k * v k = if r = 0 then claim else 0) :
    ∑ k ∈ Finset.range n, jVec rou m (K + 1) k * v k = rou.getD 0 0 * claim := by
  have e : ∀ k, jVec rou m (K + 1) k * v k = ∑ j ∈ Finset.range (K + 1), rou.getD j 0 * (m.val j k * v k) := fun k => by
    rw [jVec, Bp.range_map_sum, Finset.sum_mul]; exact Finset.sum_congr rfl fun j _ => by ring
  simp only [e]
  rw [Finset.sum_comm]
  simp only [← Finset.mul_sum]
  rw [Finset.sum_eq_single 0]
  · rw [h 0 (by omega), if_pos rfl]
  · intro j hj hne; rw [h j (Finset.mem_range.1 hj), if_neg hne, mul_zero]
  · intro hn; simp at hn

theorem sumcheck_follow (ch : Oracle F G) (params : Params G) (x y claim rc0 : F) (logG logN : Nat) (m : Mat F)
    (pie : List F) (rand : ZkRand F) (a0 : G) (polys evals : List G)
    (hlen : 4 * logN + 6 * logG ≤ pie.length) (ha : a0 = commitVec params.gen1.generators [claim] params.gen1.h rc0)
    (hp : ∀ j < logN + 2 * logG, polys[j]? = some (if j < logN then
      commitVec params.gen4.generators (coef (fun k => pie.getD k 0) logN j) params.gen4.h (rand.alpha j) else
      commitVec params.gen3.generators (coef (fun k => pie.getD k 0) logN j) params.gen3.h (rand.alpha j)))
    (hx : pie.getD (4 * logN + 6 * logG) 0 = x) (hy : pie.getD (4 * logN + 6 * logG + 1) 0 = y)
    (hz : pie.getD (4 * logN + 6 * logG + 2) 0 = x * y)
    (hm : ∀ r < logN + 2 * logG + 1, ∑ k ∈ Finset.range (4 * logN + 6 * logG + 3), m.val r k * pie.getD k 0 =
      if r = 0 then claim else 0) (tr : Transcript F G) :
    ∃ proof tr', sumcheckProve ch params x y logG logN m pie rc0 rand a0 polys evals tr = .ok (proof, tr') ∧
      sumcheckVerify ch params proof m logG logN tr = .ok ((), tr') ∧
      proof.x = commitVec params.gen1.generators [x] params.gen1.h rand.x ∧
      proof.y = commitVec params.gen1.generators [y] params.gen1.h rand.y ∧ proof.polys = polys ∧ proof.evals = evals := by
  obtain ⟨prod, tr1, hp1, hv1⟩ := C57_product ch params.gen1 x rand.x y rand.y rand.z rand.b1 rand.b2 rand.b3 rand.b4
    rand.b5 tr
  obtain ⟨_, tr2, hd, -⟩ := sayDeltas_runs (F := F) (deltaCommits params rand logG logN) tr1
  obtain ⟨rou, tr3, hc, -⟩ := Succeeds.challenges ch "challenge_nextround" (logN + 2 * logG + 1) tr2
  have hj := jVec_dot rou m (logN + 2 * logG) _ (fun k => pie.getD k 0) claim hm
  rw [Finset.sum_range_succ, Finset.sum_range_succ, Finset.sum_range_succ] at hj
  simp only [hx, hy, hz] at hj
  obtain ⟨c0, hc0⟩ : ∃ c, c = ch (tr3 ++ [.pt "comm_c" (commitVec params.gen1.generators
      [((List.range (4 * logN + 6 * logG)).map fun k => jVec rou m (logN + 2 * logG + 1) k * rand.d k).sum] params.gen1.h
      rand.c)] ++ [.chal "challenge_nextround"]) := ⟨_, rfl⟩
  obtain ⟨proof, hproof⟩ : ∃ p, p = (⟨prod, a0, commitVec params.gen1.generators [((List.range (4 * logN + 6 * logG)).map
      fun k => jVec rou m (logN + 2 * logG + 1) k * rand.d k).sum] params.gen1.h rand.c,
      commitVec params.gen1.generators [x] params.gen1.h rand.x, commitVec params.gen1.generators [y] params.gen1.h rand.y,
      commitVec params.gen1.generators [x * y] params.gen1.h rand.z, polys, evals, deltaCommits params rand logG logN,
      (List.range (4 * logN + 6 * logG)).map fun k => c0 * pie.getD k 0 + rand.d k,
      (List.range (logN + 2 * logG)).map fun k => c0 * rand.alpha k + rand.rDelta k,
      c0 * (rou.getD 0 0 * rc0 - jVec rou m (logN + 2 * logG + 1) (4 * logN + 6 * logG) * rand.x -
        jVec rou m (logN + 2 * logG + 1) (4 * logN + 6 * logG + 1) * rand.y -
        jVec rou m (logN + 2 * logG + 1) (4 * logN + 6 * logG + 2) * rand.z) + rand.c⟩ : ZkProof F G) := ⟨_, rfl⟩
  refine ⟨proof, tr3 ++ [.pt "comm_c" (commitVec params.gen1.generators
      [((List.range (4 * logN + 6 * logG)).map fun k => jVec rou m (logN + 2 * logG + 1) k * rand.d k).sum] params.gen1.h
      rand.c)] ++ [.chal "challenge_nextround"], ?_, ?_, by subst hproof; exact ⟨rfl, rfl, rfl, rfl⟩⟩
  · unfold sumcheckProve
    simp only [bind_ok hp1, bind_ok hd, bind_ok hc]
    apply Cp.runs_eq
    refine Runs.say.bind fun _ _ e => ?_
    subst e
    refine Runs.challenge.bind fun c _ e => ?_
    obtain ⟨hcc, rfl⟩ := e
    refine (Runs.ensure (by simpa using hlen)).bind fun _ _ e => ?_
    subst e
    refine Runs.pure ⟨?_, rfl⟩
    rw [hproof, hc0, hcc]
  · have hX : proof.x = commitVec params.gen1.generators [x] params.gen1.h rand.x := by rw [hproof]
    have hY : proof.y = commitVec params.gen1.generators [y] params.gen1.h rand.y := by rw [hproof]
    have hZ : proof.z = commitVec params.gen1.generators [x * y] params.gen1.h rand.z := by rw [hproof]
    have hP : proof.prod = prod := by rw [hproof]
    have hD : proof.deltas = deltaCommits params rand logG logN := by rw [hproof]
    have hPo : proof.polys = polys := by rw [hproof]
    have hA : proof.a0 = a0 := by rw [hproof]
    unfold sumcheckVerify
    rw [hX, hY, hZ, hP, hD]
    simp only [bind_ok hv1]
    apply Cp.runs_eq
    refine (Runs.ensure rfl).bind fun _ _ e => ?_
    subst e
    refine (Cp.runs_of hd).bind fun _ _ e => ?_
    obtain ⟨-, rfl⟩ := e
    refine (Cp.runs_of hc).bind fun _ _ e => ?_
    obtain ⟨rfl, rfl⟩ := e
    refine Runs.say.bind fun _ _ e => ?_
    subst e
    refine Runs.challenge.bind fun c _ e => ?_
    obtain ⟨hcc, rfl⟩ := e
    have hC : proof.c = commitVec params.gen1.generators [((List.range (4 * logN + 6 * logG)).map
      fun k => jVec rou m (logN + 2 * logG + 1) k * rand.d k).sum] params.gen1.h rand.c := by rw [hproof]
    rw [hC, ← hc0] at hcc
    have hZv : proof.zVec = (List.range (4 * logN + 6 * logG)).map fun k => c * pie.getD k 0 + rand.d k := by
      rw [hproof, hcc]
    have hZd : proof.zDelta = (List.range (logN + 2 * logG)).map fun k => c * rand.alpha k + rand.rDelta k := by
      rw [hproof, hcc]
    have hZc : proof.zc = c * (rou.getD 0 0 * rc0 - jVec rou m (logN + 2 * logG + 1) (4 * logN + 6 * logG) * rand.x -
        jVec rou m (logN + 2 * logG + 1) (4 * logN + 6 * logG + 1) * rand.y -
        jVec rou m (logN + 2 * logG + 1) (4 * logN + 6 * logG + 2) * rand.z) + rand.c := by
      rw [hproof, hcc]
    have gz : ∀ k, k < 4 * logN + 6 * logG → proof.zVec[k]? = some (c * pie.getD k 0 + rand.d k) := fun k hk => by
      rw [hZv]; simp [hk]
    have gd : ∀ k, k < logN + 2 * logG → proof.zDelta[k]? = some (c * rand.alpha k + rand.rDelta k) := fun k hk => by
      rw [hZd]; simp [hk]
    have hchk : ∀ j < logN + 2 * logG, zkRoundCheck params proof c logN j = some true := by
      intro j hj
      unfold zkRoundCheck
      rw [hPo, hp j hj, hD, gd j hj]
      have hdl : (deltaCommits params rand logG logN)[j]? = some (if j < logN then
        commitVec params.gen4.generators [rand.d (j * 4), rand.d (j * 4 + 1), rand.d (j * 4 + 2), rand.d (j * 4 + 3)]
          params.gen4.h (rand.rDelta j) else
        commitVec params.gen3.generators [rand.d (logN + j * 3), rand.d (logN + j * 3 + 1), rand.d (logN + j * 3 + 2)]
          params.gen3.h (rand.rDelta j)) := by simp [deltaCommits, hj]
      rw [hdl]
      simp only [Option.bind_eq_bind, Option.bind_some]
      by_cases hjn : j < logN
      · simp only [if_pos hjn]
        rw [gz _ (by omega), gz _ (by omega), gz _ (by omega), gz _ (by omega)]
        simp only [Option.bind_some, coef, if_pos hjn]
        rw [commitVec_lin _ _ _ _ (by simp)]
        simp only [List.zipWith_cons_cons, List.zipWith_nil_right, Nat.mul_comm 4 j, decide_true]
      · simp only [if_neg hjn]
        rw [gz _ (by omega), gz _ (by omega), gz _ (by omega)]
        simp only [Option.bind_some, coef, if_neg hjn]
        rw [commitVec_lin _ _ _ _ (by simp)]
        simp only [List.zipWith_cons_cons, List.zipWith_nil_right, Nat.mul_comm 3 j, decide_true]
    refine (Runs.orPanic (mapM_true _ _ fun j hj => hchk j (List.mem_range.1 hj))).bind fun _ _ e => ?_
    obtain ⟨rfl, rfl⟩ := e
    refine (Runs.ensure (by simp)).bind fun _ _ e => ?_
    subst e
    refine (Runs.ensure (by rw [hZv]; simp)).bind fun _ _ e => ?_
    subst e
    refine (Runs.ensure ?_).mono fun _ _ e => ⟨rfl, ?_⟩
    · simp only [decide_eq_true_eq]
      rw [hA, ha, hC, hZc]
      simp only [gen_commit]
      have hs : ((List.range (4 * logN + 6 * logG)).map fun k => jVec rou m (logN + 2 * logG + 1) k * proof.zVec.getD k 0).sum =
          c * (∑ k ∈ Finset.range (4 * logN + 6 * logG), jVec rou m (logN + 2 * logG + 1) k * pie.getD k 0) +
          ((List.range (4 * logN + 6 * logG)).map fun k => jVec rou m (logN + 2 * logG + 1) k * rand.d k).sum := by
        rw [Bp.range_map_sum, Bp.range_map_sum, Finset.mul_sum, ← Finset.sum_add_distrib]
        refine Finset.sum_congr rfl fun k hk => ?_
        rw [List.getD_eq_getElem?_getD, gz k (Finset.mem_range.1 hk), Option.getD_some]; ring
      have hj' : ∑ k ∈ Finset.range (4 * logN + 6 * logG), jVec rou m (logN + 2 * logG + 1) k * pie.getD k 0 =
          rou.getD 0 0 * claim - jVec rou m (logN + 2 * logG + 1) (4 * logN + 6 * logG) * x -
          jVec rou m (logN + 2 * logG + 1) (4 * logN + 6 * logG + 1) * y -
          jVec rou m (logN + 2 * logG + 1) (4 * logN + 6 * logG + 2) * (x * y) := by
        rw [← hj]; ring
      rw [hs, hj']
      module
    · subst e; rw [hC]

end Zkp.Hx
