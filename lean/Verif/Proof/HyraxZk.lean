/- One layer of Hyrax, all three sum-checks. -/
import Verif.Proof.HyraxRun

set_option linter.unusedSectionVars false

namespace Zkp.Hx

open Zkp.Ml Zkp.Spartan Zkp.Gkr Zkp.Cp Zkp.Sc Polynomial

variable {F : Type} [Field F] {G : Type} [AddCommGroup G] [Module F G] [DecidableEq F] [DecidableEq G]

theorem getD_lt {α : Type} {l : List α} {i : Nat} {d : α} (h : i < l.length) : l[i]? = some (l.getD i d) := by
  rw [List.getD_eq_getElem _ _ h, List.getElem?_eq_getElem h]

/-- What the commitments of the three sum-checks commit to. -/
theorem polys_committed {A B : List (List F)} {gA gB : List G} (p4 p3 : MultiParams G) (alpha : Nat → F)
    (rest : List F) (hA : ∀ p ∈ A, p.length = 4) (hB : ∀ p ∈ B, p.length = 3) (lA : gA.length = A.length)
    (cA : ∀ i < A.length, gA[i]? = some (commitVec p4.generators (A.getD i []) p4.h (alpha i)))
    (cB : ∀ i < B.length, gB[i]? = some (commitVec p3.generators (B.getD i []) p3.h (alpha (A.length + i))))
    (j : Nat) (hj : j < A.length + B.length) :
    (gA ++ gB)[j]? = some (if j < A.length then
      commitVec p4.generators (coef (fun k => ((A ++ B).flatten ++ rest).getD k 0) A.length j) p4.h (alpha j) else
      commitVec p3.generators (coef (fun k => ((A ++ B).flatten ++ rest).getD k 0) A.length j) p3.h (alpha j)) := by
  rw [coef_pie A B rest hA hB j hj]
  split
  · rename_i h
    rw [List.getElem?_append_left (by omega), cA j h, app_lo _ _ _ _ h]
  · rename_i h
    obtain ⟨s, rfl⟩ : ∃ s, j = A.length + s := ⟨j - A.length, by omega⟩
    rw [List.getElem?_append_right (by omega), lA, Nat.add_sub_cancel_left, cB s (by omega), app_hi]

set_option maxHeartbeats 1000000 in
theorem zk_follow (h2 : (2 : F) ≠ 0) (h3 : (3 : F) ≠ 0) (ch : Oracle F G) (params : Params G) (claim : F) (a0 : G)
    (rc0 u0 u1 : F) (qa ql qr : List F) (gates : List Gate) (evals : List (List F)) (n logG : Nat) (rand : ZkRand F)
    (hN : 1 ≤ Nat.clog 2 n) (hqa : qa.length = Nat.clog 2 n) (hok : LayerOk gates evals qa ql qr logG)
    (hexp : logG = 0 ∨ ql.length ≤ logG) (hclaim : claim = gateClaim gates evals qa ql qr u0 u1)
    (ha : a0 = commitVec params.gen1.generators [claim] params.gen1.h rc0) (tr : Transcript F G) :
    ∃ proof rs r0 r1 x y tr',
      zkProve ch params claim a0 rc0 u0 u1 qa ql qr gates evals n (2 ^ logG) rand tr =
        .ok ((proof, (rs, r0, r1), x, y), tr') ∧
      zkVerify ch params proof a0 u0 u1 qa ql qr gates n (2 ^ logG) tr = .ok ((proof.x, proof.y, rs, r0, r1), tr') ∧
      rs.length = qa.length ∧ r0.length = logG ∧ r1.length = logG ∧ x = mle (nodeVals evals rs) r0 ∧
      y = mle (nodeVals evals rs) r1 ∧ proof.x = commitVec params.gen1.generators [x] params.gen1.h rand.x ∧
      proof.y = commitVec params.gen1.generators [y] params.gen1.h rand.y := by
  have hcl : Nat.clog 2 (2 ^ logG) = logG := Nat.clog_pow 2 logG (by norm_num)
  have hT := tempVec_length qa ql qr u0 u1 hok.same
  have hnum := hok.num
  have hleft : ∀ g ∈ gates, g.left < 2 ^ logG := fun g hg => (hok.nodes g hg).1
  have hright : ∀ g ∈ gates, g.right < 2 ^ logG := fun g hg => (hok.nodes g hg).2
  -- first sum-check
  obtain ⟨one, tr1, e1, a1, a2, a3, a4, a5, a6, a7, a8, a9, a10, a11⟩ :=
    zkLoop_run (cubicPoly_fits h2 h3 (sumFirst_deg gates)) ch params.gen1 params.gen4 rand.alpha
      (fun j => some (rand.alphaEval j)) qa.length 0 claim a0 _ (first_tables hok u0 u1) (by simp) tr
  have t1 : one.tables = (tempVec qa ql qr u0 u1 ++ evals).map fun t => [mle t one.rs] := by
    rw [foldAll_tables _ _ (by rw [a4]; exact (first_tables hok u0 u1).2)] at a7
    exact (Option.some.inj a7).symm
  have c1 : one.claim = (gates.map fun g => (mle (evalEq qa) one.rs * (eqWeight ql g.g * u0 + eqWeight qr g.g * u1)) *
      opFirst g.op ((nodeVals evals one.rs).getD g.left 0) ((nodeVals evals one.rs).getD g.right 0)).sum := by
    rw [a11 (by rw [hclaim, first_total hok]), t1, total_final _ _ (first_tables hok u0 u1).1, first_final hok u0 u1 _ a4]
  have hp : ((tempVec qa ql qr u0 u1 ++ evals).map fun t => mle t one.rs).take gates.length =
      (tempVec qa ql qr u0 u1).map fun t => mle t one.rs := by
    rw [List.map_append, List.take_left' (by rw [List.length_map, hT, hok.len])]
  have hv : ((tempVec qa ql qr u0 u1 ++ evals).map fun t => mle t one.rs).drop gates.length = nodeVals evals one.rs := by
    rw [List.map_append, List.drop_left' (by rw [List.length_map, hT, hok.len])]; rfl
  obtain ⟨p, hpd⟩ : ∃ p, p = (tempVec qa ql qr u0 u1).map fun t => mle t one.rs := ⟨_, rfl⟩
  obtain ⟨vs, hvd⟩ : ∃ vs, vs = nodeVals evals one.rs := ⟨_, rfl⟩
  have hpl : p.length = gates.length := by rw [hpd, List.length_map, hT, hok.len]
  have hpg : ∀ g ∈ gates, p.getD g.g 0 = mle (evalEq qa) one.rs * (eqWeight ql g.g * u0 + eqWeight qr g.g * u1) := by
    intro g hg
    rw [hpd, getD_map_mle, tempVec_getD _ _ _ _ _ hok.same _ (hok.gLt hg), scaled_mle _ _ _ a4]
  have hvl : vs.length = 2 ^ logG := by rw [hvd]; simp [nodeVals, hok.count]
  rw [← hpd] at hp
  rw [← hvd] at hv c1
  -- second sum-check
  obtain ⟨two, tr2, e2, b1, b2, b3, b4, b5, b6, b7, b8, b9, b10, b11⟩ :=
    zkLoop_run (quadPoly_fits h2 (sumLeft_deg gates p vs)) ch params.gen1 params.gen3 rand.alpha
      (fun j => some (rand.alphaEval j)) logG qa.length one.claim one.comm _
      (later_tables gates (fun g => g.left) logG hleft vs hvl) (by simp) tr1
  obtain ⟨x, hx⟩ : ∃ x, x = mle vs two.rs := ⟨_, rfl⟩
  have lv := later_values hnum (fun g => g.left) logG hleft vs two.rs b4
  rw [← hx] at lv
  have t2 : two.tables = (nodeTabs gates (fun g => g.left) logG ++ [vs]).map fun t => [mle t two.rs] := by
    rw [foldAll_tables _ _ (by rw [b4]; exact (later_tables gates (fun g => g.left) logG hleft vs hvl).2)] at b7
    exact (Option.some.inj b7).symm
  obtain ⟨hl, hhl⟩ : ∃ hl, hl = (nodeTabs gates (fun g => g.left) logG ++ [vs]).map fun t => mle t two.rs := ⟨_, rfl⟩
  rw [← hhl] at lv
  have hll : hl.length = gates.length + 1 := by rw [hhl]; simp [nodeTabs_length]
  have c2 : two.claim = (gates.map fun g => eqWeight two.rs g.left * p.getD g.g 0 * opLater g.op x (vs.getD g.right 0)).sum := by
    rw [b11 ?_, t2, total_final _ _ (by simp), ← hhl, sumLeft_eq hnum]
    · refine map_sum_congr fun g hg => ?_
      rw [lv.1 g hg, List.getD_eq_getElem?_getD (l := hl), lv.2, Option.getD_some]
    · rw [left_total hnum logG hleft p vs hvl, c1]
      exact map_sum_congr fun g hg => by rw [hpg g hg, opLater_eq (hok.op g hg)]
  obtain ⟨p2, hp2⟩ : ∃ p2, p2 = List.zipWith (· * ·) hl p := ⟨_, rfl⟩
  have hp2g : ∀ g ∈ gates, p2.getD g.g 0 = eqWeight two.rs g.left * p.getD g.g 0 := by
    intro g hg
    have hg1 := (hnum.get hg).1
    rw [← lv.1 g hg, hp2, List.getD_eq_getElem _ _ (by simp; omega), List.getElem_zipWith,
      List.getD_eq_getElem _ _ (by omega), List.getD_eq_getElem _ _ (by omega)]
  -- third sum-check
  obtain ⟨three, tr3, e3, d1, d2, d3, d4, d5, d6, d7, d8, d9, d10, d11⟩ :=
    zkLoop_run (quadPoly_fits h2 (sumRight_deg gates p2 x)) ch params.gen1 params.gen3 rand.alpha
      (lastBlind rand qa.length logG ql.length) logG (qa.length + logG) two.claim two.comm _
      (later_tables gates (fun g => g.right) logG hright vs hvl)
      (fun i hi => by
        unfold lastBlind
        rw [if_pos (by omega)]; rfl) tr2
  obtain ⟨y, hy⟩ : ∃ y, y = mle vs three.rs := ⟨_, rfl⟩
  have rv := later_values hnum (fun g => g.right) logG hright vs three.rs d4
  rw [← hy] at rv
  have t3 : three.tables = (nodeTabs gates (fun g => g.right) logG ++ [vs]).map fun t => [mle t three.rs] := by
    rw [foldAll_tables _ _ (by rw [d4]; exact (later_tables gates (fun g => g.right) logG hright vs hvl).2)] at d7
    exact (Option.some.inj d7).symm
  have c3 : three.claim = (gates.map fun g => (mle ((List.range (2 ^ qa.length)).map (eqWeight qa)) one.rs *
      (u0 * eqWeight ql g.g + u1 * eqWeight qr g.g) * eqWeight two.rs g.left * eqWeight three.rs g.right) *
      (if g.op = 0 then x + y else if g.op = 1 then x * y else 0)).sum := by
    rw [d11 ?_, t3, total_final _ _ (by simp), sumRight_eq hnum]
    · refine map_sum_congr fun g hg => ?_
      rw [rv.1 g hg, List.getD_eq_getElem?_getD (i := gates.length), rv.2, Option.getD_some, hp2g g hg, hpg g hg, evalEq_eq]
      simp only [opLater]
      ring
    · rw [right_total hnum logG hright p2 vs x hvl, c2]
      exact map_sum_congr fun g hg => by rw [hp2g g hg]
  -- the matrix
  have hgok : ∀ t ∈ gates, t.g < 2 ^ ql.length ∧ t.left < 2 ^ logG ∧ t.right < 2 ^ logG := fun g hg =>
    ⟨hok.gLt hg, hok.nodes g hg⟩
  obtain ⟨m, hm, hmr, hmc⟩ := C56_partial one.rs two.rs three.rs qa ql qr gates u0 u1 qa.length logG (by omega) a4 b4 d4 rfl
    hok.same hgok
  have hB : ∀ q ∈ two.polys ++ three.polys, q.length = 3 := fun q hq =>
    (List.mem_append.1 hq).elim (b2 q) (d2 q)
  have hBl : (two.polys ++ three.polys).length = 2 * logG := by rw [List.length_append, b1, d1]; ring
  obtain ⟨pie, hpie⟩ : ∃ pie, pie = (one.polys ++ (two.polys ++ three.polys)).flatten ++ [x, y, x * y] := ⟨_, rfl⟩
  have hfl : (one.polys ++ (two.polys ++ three.polys)).flatten.length = 4 * qa.length + 6 * logG := by
    rw [List.flatten_append, List.length_append, flatten_len 4 _ a2, flatten_len 3 _ hB, hBl, a1]; ring
  have hcoef : ∀ t, t < qa.length + 2 * logG → coef (fun k => pie.getD k 0) qa.length t =
      (one.polys ++ (two.polys ++ three.polys)).getD t [] := by
    intro t ht
    have := coef_pie one.polys (two.polys ++ three.polys) [x, y, x * y] a2 hB t (by rw [a1, hBl]; exact ht)
    rw [a1, ← hpie] at this; exact this
  have hpx : pie.getD (4 * qa.length + 6 * logG) 0 = x := by
    have := app_hi (one.polys ++ (two.polys ++ three.polys)).flatten [x, y, x * y] 0 0
    rw [hfl, ← hpie] at this; exact this
  have hpy : pie.getD (4 * qa.length + 6 * logG + 1) 0 = y := by
    have := app_hi (one.polys ++ (two.polys ++ three.polys)).flatten [x, y, x * y] 1 0
    rw [hfl, ← hpie] at this; exact this
  have hpz : pie.getD (4 * qa.length + 6 * logG + 2) 0 = x * y := by
    have := app_hi (one.polys ++ (two.polys ++ three.polys)).flatten [x, y, x * y] 2 0
    rw [hfl, ← hpie] at this; exact this
  have hrounds := roundsOk_append a10 (roundsOk_append b10 d10)
  obtain ⟨r1', r2', r3'⟩ := roundsOk_each _ _ _ hrounds (by
    intro e
    have := congrArg List.length e
    rw [List.length_append, a1] at this
    simp only [List.length_nil] at this
    omega)
  have hpl' : (one.polys ++ (two.polys ++ three.polys)).length = qa.length + 2 * logG := by
    rw [List.length_append, a1, hBl]
  rw [← List.append_assoc one.rs] at r2' r3'
  rw [hpl'] at r2' r3'
  have hmat := (C78_matrix one.rs two.rs three.rs qa ql qr gates u0 u1 qa.length logG (by omega) a4 b4 d4 rfl hok.same hgok m hm
    claim (fun k => pie.getD k 0)).2 ⟨by rw [hcoef 0 (by omega)]; exact r1', fun t ht => by
      rw [hcoef t (by omega), hcoef (t + 1) (by omega)]; exact r2' t ht, by
      rw [hcoef _ (by omega), r3', c3]; simp only [hpx, hpy, hpz]⟩
  rw [hmr, hmc] at hmat
  have hcomm : ∀ j < qa.length + 2 * logG, (one.commPolys ++ (two.commPolys ++ three.commPolys))[j]? =
      some (if j < qa.length then
        commitVec params.gen4.generators (coef (fun k => pie.getD k 0) qa.length j) params.gen4.h (rand.alpha j) else
        commitVec params.gen3.generators (coef (fun k => pie.getD k 0) qa.length j) params.gen3.h (rand.alpha j)) := by
    intro j hj
    have := polys_committed (A := one.polys) (B := two.polys ++ three.polys) (gA := one.commPolys)
      (gB := two.commPolys ++ three.commPolys) params.gen4 params.gen3 rand.alpha [x, y, x * y] a2 hB (by rw [a5, a1])
      (fun i hi => by have := a6 i (by omega); rwa [Nat.zero_add] at this)
      (fun i hi => by
        rw [hBl] at hi
        by_cases hi' : i < logG
        · rw [List.getElem?_append_left (by omega), b6 i hi', app_lo _ _ _ _ (by omega), a1]
        · obtain ⟨s, rfl⟩ : ∃ s, i = logG + s := ⟨i - logG, by omega⟩
          rw [List.getElem?_append_right (by omega), b5, Nat.add_sub_cancel_left, d6 s (by omega)]
          have := app_hi two.polys three.polys s []
          rw [b1] at this
          rw [this, a1, Nat.add_assoc])
      j (by rw [a1, hBl]; exact hj)
    rw [a1, ← hpie] at this
    exact this
  obtain ⟨proof, tr', hP, hV, hpx', hpy', hpp, hpe⟩ := sumcheck_follow ch params x y claim rc0 logG qa.length m pie rand a0
    (one.commPolys ++ (two.commPolys ++ three.commPolys)) (one.commEvals ++ (two.commEvals ++ three.commEvals))
    (by rw [hpie, List.length_append, hfl]; omega) ha hcomm hpx hpy hpz hmat tr3
  refine ⟨proof, one.rs, two.rs, three.rs, x, y, tr', ?_, ?_, a4, b4, d4, hx.trans (by rw [hvd]), hy.trans (by rw [hvd]),
    hpx', hpy'⟩
  · apply Cp.runs_eq
    unfold zkProve
    rw [hcl, ← hqa]
    refine (Runs.ensure (by simp)).bind fun _ _ e => ?_
    subst e
    refine (Runs.ensure (by simp [hok.same])).bind fun _ _ e => ?_
    subst e
    refine (Runs.ensure (by simp [hT, hok.len])).bind fun _ _ e => ?_
    subst e
    refine (Runs.ensure (by
      rw [List.all_eq_true]
      intro g hg
      simp [hok.nodes g hg])).bind fun _ _ e => ?_
    subst e
    refine (Cp.runs_of e1).bind fun _ _ e => ?_
    obtain ⟨rfl, rfl⟩ := e
    refine (Runs.orPanic (by rw [t1]; exact heads_some _ _)).bind fun _ _ e => ?_
    obtain ⟨rfl, rfl⟩ := e
    refine (Runs.orPanic (node_tables logG)).bind fun _ _ e => ?_
    obtain ⟨rfl, rfl⟩ := e
    rw [hp, hv]
    refine (Cp.runs_of e2).bind fun _ _ e => ?_
    obtain ⟨rfl, rfl⟩ := e
    refine (Runs.orPanic (by rw [t2]; exact heads_some _ _)).bind fun _ _ e => ?_
    obtain ⟨rfl, rfl⟩ := e
    rw [← hhl, ← hp2]
    refine (Runs.orPanic lv.2).bind fun _ _ e => ?_
    obtain ⟨rfl, rfl⟩ := e
    refine (Cp.runs_of e3).bind fun _ _ e => ?_
    obtain ⟨rfl, rfl⟩ := e
    refine (Runs.orPanic (by rw [t3]; exact heads_some _ _)).bind fun _ _ e => ?_
    obtain ⟨rfl, rfl⟩ := e
    refine (Runs.orPanic rv.2).bind fun _ _ e => ?_
    obtain ⟨rfl, rfl⟩ := e
    refine (Runs.orPanic hm).bind fun _ _ e => ?_
    obtain ⟨rfl, rfl⟩ := e
    rw [List.append_assoc one.polys, List.append_assoc one.commPolys, List.append_assoc one.commEvals, ← hpie]
    refine (Cp.runs_of hP).bind fun _ _ e => ?_
    obtain ⟨rfl, rfl⟩ := e
    exact Runs.pure ⟨rfl, rfl⟩
  · apply Cp.runs_eq
    unfold zkVerify
    rw [hcl, ← hqa]
    have hst := a8.append (by rw [← a9]; exact b8.append (by rw [← b9]; exact d8))
    have hfol := zkRounds_follow ch proof _ _ _ 0 a0 tr tr3 hst
      (fun i _ => by rw [hpp, Nat.zero_add]) (fun i _ => by rw [hpe, Nat.zero_add])
    rw [List.length_append, List.length_append, a5, b5, d5, ← two_mul] at hfol
    refine (Cp.runs_of hfol).bind fun _ _ e => ?_
    obtain ⟨rfl, rfl⟩ := e
    have k1 : (one.rs ++ (two.rs ++ three.rs)).take qa.length = one.rs := List.take_left' a4
    have k2 : ((one.rs ++ (two.rs ++ three.rs)).drop qa.length).take logG = two.rs := by
      rw [List.drop_left' a4, List.take_left' b4]
    have k3 : (one.rs ++ (two.rs ++ three.rs)).drop (qa.length + logG) = three.rs := by
      rw [← List.drop_drop, List.drop_left' a4, List.drop_left' b4]
    rw [k1, k2, k3]
    refine (Runs.orPanic hm).bind fun _ _ e => ?_
    obtain ⟨rfl, rfl⟩ := e
    refine (Cp.runs_of hV).bind fun _ _ e => ?_
    obtain ⟨-, rfl⟩ := e
    exact Runs.pure ⟨rfl, rfl⟩

end Zkp.Hx
