/- One layer of Hyrax's prover with challenges fixed beforehand: the run from its parts. -/
import Verif.Proof.HyraxHiding

set_option linter.unusedSectionVars false
set_option linter.unusedSimpArgs false

namespace Zkp.Hx

open Zkp.Ml Zkp.Spartan Zkp.Gkr Zkp.Cp Zkp.Sc Polynomial

variable {F : Type} [Field F] {G : Type} [AddCommGroup G] [Module F G] [DecidableEq F] [DecidableEq G]

theorem range_split {α : Type} (f : Nat → α) (a b : Nat) :
    (List.range (a + b)).map f = (List.range a).map f ++ (List.range b).map fun i => f (a + i) := by
  rw [List.range_add, List.map_append, List.map_map]; rfl

/-- The commitments of the three sum-checks to their polynomials. -/
theorem polyComms_split (params : Params G) (alpha : Nat → F) (A B C : List (List F)) (rest : List F) (hA : ∀ p ∈ A, p.length = 4)
    (hB : ∀ p ∈ B, p.length = 3) (hC : ∀ p ∈ C, p.length = 3) (logN logG : Nat) (lA : A.length = logN) (lB : B.length = logG)
    (lC : C.length = logG) :
    polyComms params alpha logN logG ((A ++ B ++ C).flatten ++ rest) =
      ((List.range logN).map fun i => commitVec params.gen4.generators (A.getD i []) params.gen4.h (alpha (0 + i))) ++
      ((List.range logG).map fun i => commitVec params.gen3.generators (B.getD i []) params.gen3.h (alpha (logN + i))) ++
      ((List.range logG).map fun i => commitVec params.gen3.generators (C.getD i []) params.gen3.h (alpha (logN + logG + i))) := by
  have hBC : ∀ p ∈ B ++ C, p.length = 3 := fun q hq => (List.mem_append.1 hq).elim (hB q) (hC q)
  have lBC : (B ++ C).length = 2 * logG := by rw [List.length_append, lB, lC]; ring
  have hc : ∀ j, j < logN + 2 * logG → coef (fun k => ((A ++ B ++ C).flatten ++ rest).getD k 0) logN j = (A ++ (B ++ C)).getD j [] := by
    intro j hj
    have := coef_pie A (B ++ C) rest hA hBC j (by rw [lA, lBC]; exact hj)
    rw [lA] at this
    rw [List.append_assoc]; exact this
  unfold polyComms
  rw [two_mul, ← Nat.add_assoc, range_split, range_split]
  congr 1
  · congr 1
    · refine List.map_congr_left fun i hi => ?_
      have hi := List.mem_range.1 hi
      rw [if_pos hi, hc i (by omega), app_lo _ _ _ _ (by omega), Nat.zero_add]
    · refine List.map_congr_left fun i hi => ?_
      have hi := List.mem_range.1 hi
      have := app_hi A (B ++ C) i []
      rw [lA] at this
      rw [if_neg (by omega), hc _ (by omega), this, app_lo _ _ _ _ (by omega)]
  · refine List.map_congr_left fun i hi => ?_
    have hi := List.mem_range.1 hi
    have e1 := app_hi A (B ++ C) (logG + i) []
    have e2 := app_hi B C i []
    rw [lA] at e1
    rw [lB] at e2
    rw [if_neg (by omega), hc _ (by omega), Nat.add_assoc, e1, e2]

theorem evalComms_split (params : Params G) (alphaEval : Nat → F) (A B C : List F) (logN logG lg : Nat) (lA : A.length = logN)
    (lB : B.length = logG) (lC : C.length = logG) :
    evalComms params alphaEval logN logG lg (A ++ B ++ C) =
      ((List.range logN).map fun i => commitVec params.gen1.generators [A.getD i 0] params.gen1.h (alphaEval i)) ++
      ((List.range logG).map fun i => commitVec params.gen1.generators [B.getD i 0] params.gen1.h (alphaEval (logN + i))) ++
      ((List.range logG).map fun i => commitVec params.gen1.generators [C.getD i 0] params.gen1.h (alphaEval (logN + lg + i))) := by
  unfold evalComms
  rw [two_mul, ← Nat.add_assoc, range_split, range_split, List.append_assoc A]
  congr 1
  · congr 1
    · refine List.map_congr_left fun i hi => ?_
      have hi := List.mem_range.1 hi
      rw [evalPos, if_pos (by omega), app_lo _ _ _ _ (by omega)]
    · refine List.map_congr_left fun i hi => ?_
      have hi := List.mem_range.1 hi
      have := app_hi A (B ++ C) i 0
      rw [lA] at this
      rw [evalPos, if_pos (by omega), this, app_lo _ _ _ _ (by omega)]
  · refine List.map_congr_left fun i hi => ?_
    have hi := List.mem_range.1 hi
    have e1 := app_hi A (B ++ C) (logG + i) 0
    have e2 := app_hi B C i 0
    rw [lA] at e1
    rw [lB] at e2
    rw [evalPos, if_neg (by omega), Nat.add_assoc, e1, e2, show logN + (logG + i) - logG + lg = logN + (lg + i) by omega,
      Nat.add_assoc]

/-- What a layer computes before any random scalar is used, and its run. -/
structure ZkRun (ch : Oracle F G) (params : Params G) (claim u0 u1 : F) (qa ql qr : List F) (gates : List Gate)
    (evals : List (List F)) (logN logG n : Nat) (m : Mat F) (pie vals : List F) (x y : F) : Prop where
  matrix : constructMatrix (zkChals ch n logN) (zkChals ch (n + 4 * logN) logG) (zkChals ch (n + 4 * logN + 4 * logG) logG)
    qa ql qr gates u0 u1 logN logG = some m
  lenPie : pie.length = 4 * logN + 6 * logG + 3
  lenVals : vals.length = logN + 2 * logG
  valX : x = mle (nodeVals evals (zkChals ch n logN)) (zkChals ch (n + 4 * logN) logG)
  valY : y = mle (nodeVals evals (zkChals ch n logN)) (zkChals ch (n + 4 * logN + 4 * logG) logG)
  dot : ∀ rou : List F, ∑ k ∈ Finset.range (4 * logN + 6 * logG), jVec rou m (logN + 2 * logG + 1) k * pie.getD k 0 =
    rou.getD 0 0 * claim - jVec rou m (logN + 2 * logG + 1) (4 * logN + 6 * logG) * x -
      jVec rou m (logN + 2 * logG + 1) (4 * logN + 6 * logG + 1) * y -
      jVec rou m (logN + 2 * logG + 1) (4 * logN + 6 * logG + 2) * (x * y)
  run : ∀ (a0 : G) (rc0 : F) (rand : ZkRand F) (prod : ProdProof F G),
    Yields (productProve ch params.gen1 x rand.x y rand.y (x * y) rand.z rand.b1 rand.b2 rand.b3 rand.b4 rand.b5)
      (n + 4 * (logN + 2 * logG)) (prod, commitVec params.gen1.generators [x] params.gen1.h rand.x,
        commitVec params.gen1.generators [y] params.gen1.h rand.y,
        commitVec params.gen1.generators [x * y] params.gen1.h rand.z) (n + 4 * (logN + 2 * logG) + 7) →
    Yields (zkProve ch params claim a0 rc0 u0 u1 qa ql qr gates evals (2 ^ logN) (2 ^ logG) rand) n
      (zkOut params prod logN logG ql.length (jVec (zkRou ch n logN logG) m (logN + 2 * logG + 1))
        ((zkRou ch n logN logG).getD 0 0) (zkC ch n logN logG) pie vals x y a0 rc0 rand,
        (zkChals ch n logN, zkChals ch (n + 4 * logN) logG, zkChals ch (n + 4 * logN + 4 * logG) logG), x, y)
      (n + 6 * (logN + 2 * logG) + 10)

set_option maxHeartbeats 1000000 in
theorem zk_yields (h2 : (2 : F) ≠ 0) (h3 : (3 : F) ≠ 0) {ch : Oracle F G} (ho : Oblivious ch) (params : Params G) (claim u0 u1 : F)
    (qa ql qr : List F) (gates : List Gate) (evals : List (List F)) (logG n : Nat)
    (hN : 1 ≤ qa.length) (hok : LayerOk gates evals qa ql qr logG)
    (hexp : logG = 0 ∨ ql.length ≤ logG) (hclaim : claim = gateClaim gates evals qa ql qr u0 u1) :
    ∃ m pie vals x y, ZkRun ch params claim u0 u1 qa ql qr gates evals qa.length logG n m pie vals x y := by
  have hcl : ∀ l, Nat.clog 2 (2 ^ l) = l := fun l => Nat.clog_pow 2 l (by norm_num)
  have hT := tempVec_length qa ql qr u0 u1 hok.same
  have hnum := hok.num
  have hleft : ∀ g ∈ gates, g.left < 2 ^ logG := fun g hg => (hok.nodes g hg).1
  have hright : ∀ g ∈ gates, g.right < 2 ^ logG := fun g hg => (hok.nodes g hg).2
  obtain ⟨rs, hrs⟩ : ∃ rs, rs = zkChals ch n qa.length := ⟨_, rfl⟩
  obtain ⟨r0, hr0⟩ : ∃ r0, r0 = zkChals ch (n + 4 * qa.length) logG := ⟨_, rfl⟩
  obtain ⟨r1, hr1⟩ : ∃ r1, r1 = zkChals ch (n + 4 * qa.length + 4 * logG) logG := ⟨_, rfl⟩
  have a4 : rs.length = qa.length := by rw [hrs, zkChals_length]
  have b4 : r0.length = logG := by rw [hr0, zkChals_length]
  have d4 : r1.length = logG := by rw [hr1, zkChals_length]
  -- first sum-check
  obtain ⟨poly1, val1, tab1, a1, a2, a3, a7, a10, a11, Y1⟩ :=
    zkLoop_yields (cubicPoly_fits h2 h3 (sumFirst_deg gates)) ho params.gen1 params.gen4 qa.length 0 n claim _
      (first_tables hok u0 u1)
  rw [← hrs] at a7 a10 Y1
  obtain ⟨cl1, hcl1⟩ : ∃ c, c = val1.getLastD claim := ⟨_, rfl⟩
  rw [← hcl1] at a10 a11 Y1
  have t1 : tab1 = (tempVec qa ql qr u0 u1 ++ evals).map fun t => [mle t rs] := by
    rw [foldAll_tables _ _ (by rw [a4]; exact (first_tables hok u0 u1).2)] at a7
    exact (Option.some.inj a7).symm
  have c1 : cl1 = (gates.map fun g => (mle (evalEq qa) rs * (eqWeight ql g.g * u0 + eqWeight qr g.g * u1)) *
      opFirst g.op ((nodeVals evals rs).getD g.left 0) ((nodeVals evals rs).getD g.right 0)).sum := by
    rw [a11 (by rw [hclaim, first_total hok]), t1, total_final _ _ (first_tables hok u0 u1).1, first_final hok u0 u1 _ a4]
  have hp : ((tempVec qa ql qr u0 u1 ++ evals).map fun t => mle t rs).take gates.length =
      (tempVec qa ql qr u0 u1).map fun t => mle t rs := by
    rw [List.map_append, List.take_left' (by rw [List.length_map, hT, hok.len])]
  have hv : ((tempVec qa ql qr u0 u1 ++ evals).map fun t => mle t rs).drop gates.length = nodeVals evals rs := by
    rw [List.map_append, List.drop_left' (by rw [List.length_map, hT, hok.len])]; rfl
  obtain ⟨p, hpd⟩ : ∃ p, p = (tempVec qa ql qr u0 u1).map fun t => mle t rs := ⟨_, rfl⟩
  obtain ⟨vs, hvd⟩ : ∃ vs, vs = nodeVals evals rs := ⟨_, rfl⟩
  have hpl : p.length = gates.length := by rw [hpd, List.length_map, hT, hok.len]
  have hpg : ∀ g ∈ gates, p.getD g.g 0 = mle (evalEq qa) rs * (eqWeight ql g.g * u0 + eqWeight qr g.g * u1) := by
    intro g hg
    rw [hpd, getD_map_mle, tempVec_getD _ _ _ _ _ hok.same _ (hok.gLt hg), scaled_mle _ _ _ a4]
  have hvl : vs.length = 2 ^ logG := by rw [hvd]; simp [nodeVals, hok.count]
  rw [← hpd] at hp
  rw [← hvd] at hv c1
  -- second sum-check
  obtain ⟨poly2, val2, tab2, b1, b2, b3, b7, b10, b11, Y2⟩ :=
    zkLoop_yields (quadPoly_fits h2 (sumLeft_deg gates p vs)) ho params.gen1 params.gen3 logG qa.length (n + 4 * qa.length) cl1 _
      (later_tables gates (fun g => g.left) logG hleft vs hvl)
  rw [← hr0] at b7 b10 Y2
  obtain ⟨cl2, hcl2⟩ : ∃ c, c = val2.getLastD cl1 := ⟨_, rfl⟩
  rw [← hcl2] at b10 b11 Y2
  obtain ⟨x, hx⟩ : ∃ x, x = mle vs r0 := ⟨_, rfl⟩
  have lv := later_values hnum (fun g => g.left) logG hleft vs r0 b4
  rw [← hx] at lv
  have t2 : tab2 = (nodeTabs gates (fun g => g.left) logG ++ [vs]).map fun t => [mle t r0] := by
    rw [foldAll_tables _ _ (by rw [b4]; exact (later_tables gates (fun g => g.left) logG hleft vs hvl).2)] at b7
    exact (Option.some.inj b7).symm
  obtain ⟨hl, hhl⟩ : ∃ hl, hl = (nodeTabs gates (fun g => g.left) logG ++ [vs]).map fun t => mle t r0 := ⟨_, rfl⟩
  rw [← hhl] at lv
  have hll : hl.length = gates.length + 1 := by rw [hhl]; simp [nodeTabs_length]
  have c2 : cl2 = (gates.map fun g => eqWeight r0 g.left * p.getD g.g 0 * opLater g.op x (vs.getD g.right 0)).sum := by
    rw [b11 ?_, t2, total_final _ _ (by simp), ← hhl, sumLeft_eq hnum]
    · refine map_sum_congr fun g hg => ?_
      rw [lv.1 g hg, List.getD_eq_getElem?_getD (l := hl), lv.2, Option.getD_some]
    · rw [left_total hnum logG hleft p vs hvl, c1]
      exact map_sum_congr fun g hg => by rw [hpg g hg, opLater_eq (hok.op g hg)]
  obtain ⟨p2, hp2⟩ : ∃ p2, p2 = List.zipWith (· * ·) hl p := ⟨_, rfl⟩
  have hp2g : ∀ g ∈ gates, p2.getD g.g 0 = eqWeight r0 g.left * p.getD g.g 0 := by
    intro g hg
    have hg1 := (hnum.get hg).1
    rw [← lv.1 g hg, hp2, List.getD_eq_getElem _ _ (by simp; omega), List.getElem_zipWith,
      List.getD_eq_getElem _ _ (by omega), List.getD_eq_getElem _ _ (by omega)]
  -- third sum-check
  obtain ⟨poly3, val3, tab3, d1, d2, d3, d7, d10, d11, Y3⟩ :=
    zkLoop_yields (quadPoly_fits h2 (sumRight_deg gates p2 x)) ho params.gen1 params.gen3 logG (qa.length + logG)
      (n + 4 * qa.length + 4 * logG) cl2 _ (later_tables gates (fun g => g.right) logG hright vs hvl)
  rw [← hr1] at d7 d10 Y3
  obtain ⟨cl3, hcl3⟩ : ∃ c, c = val3.getLastD cl2 := ⟨_, rfl⟩
  rw [← hcl3] at d10 d11 Y3
  obtain ⟨y, hy⟩ : ∃ y, y = mle vs r1 := ⟨_, rfl⟩
  have rv := later_values hnum (fun g => g.right) logG hright vs r1 d4
  rw [← hy] at rv
  have t3 : tab3 = (nodeTabs gates (fun g => g.right) logG ++ [vs]).map fun t => [mle t r1] := by
    rw [foldAll_tables _ _ (by rw [d4]; exact (later_tables gates (fun g => g.right) logG hright vs hvl).2)] at d7
    exact (Option.some.inj d7).symm
  have c3 : cl3 = (gates.map fun g => (mle ((List.range (2 ^ qa.length)).map (eqWeight qa)) rs *
      (u0 * eqWeight ql g.g + u1 * eqWeight qr g.g) * eqWeight r0 g.left * eqWeight r1 g.right) *
      (if g.op = 0 then x + y else if g.op = 1 then x * y else 0)).sum := by
    rw [d11 ?_, t3, total_final _ _ (by simp), sumRight_eq hnum]
    · refine map_sum_congr fun g hg => ?_
      rw [rv.1 g hg, List.getD_eq_getElem?_getD (i := gates.length), rv.2, Option.getD_some, hp2g g hg, hpg g hg, evalEq_eq]
      simp only [opLater]
      ring
    · rw [right_total hnum logG hright p2 vs x hvl, c2]
      exact map_sum_congr fun g hg => by rw [hp2g g hg]
  -- the matrix
  have hgok : ∀ t ∈ gates, t.g < 2 ^ ql.length ∧ t.left < 2 ^ logG ∧ t.right < 2 ^ logG := fun g hg =>
    ⟨hok.gLt hg, hok.nodes g hg⟩
  obtain ⟨m, hm, hmr, hmc⟩ := C56_partial rs r0 r1 qa ql qr gates u0 u1 qa.length logG hN a4 b4 d4 rfl hok.same hgok
  have hB : ∀ q ∈ poly2 ++ poly3, q.length = 3 := fun q hq => (List.mem_append.1 hq).elim (b2 q) (d2 q)
  have hBl : (poly2 ++ poly3).length = 2 * logG := by rw [List.length_append, b1, d1]; ring
  obtain ⟨pie, hpie⟩ : ∃ pie, pie = (poly1 ++ (poly2 ++ poly3)).flatten ++ [x, y, x * y] := ⟨_, rfl⟩
  have hfl : (poly1 ++ (poly2 ++ poly3)).flatten.length = 4 * qa.length + 6 * logG := by
    rw [List.flatten_append, List.length_append, flatten_len 4 _ a2, flatten_len 3 _ hB, hBl, a1]; ring
  have hcoef : ∀ t, t < qa.length + 2 * logG → coef (fun k => pie.getD k 0) qa.length t =
      (poly1 ++ (poly2 ++ poly3)).getD t [] := by
    intro t ht
    have := coef_pie poly1 (poly2 ++ poly3) [x, y, x * y] a2 hB t (by rw [a1, hBl]; exact ht)
    rw [a1, ← hpie] at this; exact this
  have hpx : pie.getD (4 * qa.length + 6 * logG) 0 = x := by
    have := app_hi (poly1 ++ (poly2 ++ poly3)).flatten [x, y, x * y] 0 0
    rw [hfl, ← hpie] at this; exact this
  have hpy : pie.getD (4 * qa.length + 6 * logG + 1) 0 = y := by
    have := app_hi (poly1 ++ (poly2 ++ poly3)).flatten [x, y, x * y] 1 0
    rw [hfl, ← hpie] at this; exact this
  have hpz : pie.getD (4 * qa.length + 6 * logG + 2) 0 = x * y := by
    have := app_hi (poly1 ++ (poly2 ++ poly3)).flatten [x, y, x * y] 2 0
    rw [hfl, ← hpie] at this; exact this
  have hrounds := roundsOk_append a10 (roundsOk_append b10 d10)
  obtain ⟨r1', r2', r3'⟩ := roundsOk_each _ _ _ hrounds (by
    intro e
    have := congrArg List.length e
    rw [List.length_append, a1] at this
    simp only [List.length_nil] at this
    omega)
  have hpl' : (poly1 ++ (poly2 ++ poly3)).length = qa.length + 2 * logG := by rw [List.length_append, a1, hBl]
  rw [← List.append_assoc rs] at r2' r3'
  rw [hpl'] at r2' r3'
  have hmat := (C78_matrix rs r0 r1 qa ql qr gates u0 u1 qa.length logG hN a4 b4 d4 rfl hok.same hgok m hm
    claim (fun k => pie.getD k 0)).2 ⟨by rw [hcoef 0 (by omega)]; exact r1', fun t ht => by
      rw [hcoef t (by omega), hcoef (t + 1) (by omega)]; exact r2' t ht, by
      rw [hcoef _ (by omega), r3', c3]; simp only [hpx, hpy, hpz]⟩
  rw [hmr, hmc] at hmat
  refine ⟨m, pie, val1 ++ val2 ++ val3, x, y, ⟨by rw [← hrs, ← hr0, ← hr1]; exact hm, by rw [hpie, List.length_append, hfl]; rfl,
    by rw [List.length_append, List.length_append, a3, b3, d3]; ring, by rw [hx, hvd, hrs, hr0], by rw [hy, hvd, hrs, hr1], ?_, ?_⟩⟩
  · intro rou
    have hj := jVec_dot rou m (qa.length + 2 * logG) _ (fun k => pie.getD k 0) claim hmat
    rw [Finset.sum_range_succ, Finset.sum_range_succ, Finset.sum_range_succ] at hj
    simp only [hpx, hpy, hpz] at hj
    rw [← hj]; ring
  · intro a0 rc0 rand prod P
    obtain ⟨l1, Y1⟩ := Y1 rand.alpha (fun j => some (rand.alphaEval j)) (fun i => rand.alphaEval i) a0
      (fun i _ => by rw [Nat.zero_add])
    obtain ⟨l2, Y2⟩ := Y2 rand.alpha (fun j => some (rand.alphaEval j)) (fun i => rand.alphaEval (qa.length + i)) l1 (fun i _ => rfl)
    obtain ⟨l3, Y3⟩ := Y3 rand.alpha (lastBlind rand qa.length logG ql.length) (fun i => rand.alphaEval (qa.length + ql.length + i))
      l2 (fun i hi => by
        unfold lastBlind
        rw [if_pos (by omega), show qa.length + logG + i - logG + ql.length = qa.length + ql.length + i by omega])
    have S := sumcheckProve_yields ho params x y logG qa.length ql.length m pie (val1 ++ val2 ++ val3)
      (by rw [hpie, List.length_append, hfl]; omega) rc0 rand a0 n _ rfl prod P
    rw [hpie, ← List.append_assoc poly1, polyComms_split params rand.alpha poly1 poly2 poly3 _ a2 b2 d2 qa.length logG a1 b1 d1,
      evalComms_split params rand.alphaEval val1 val2 val3 qa.length logG ql.length a3 b3 d3] at S
    unfold zkProve
    rw [hcl, hcl]
    refine (Yields.ensure (by simp)).bind ((Yields.ensure (by simp [hok.same])).bind ((Yields.ensure (by simp [hT, hok.len])).bind
      ((Yields.ensure (by
      rw [List.all_eq_true]
      intro g hg
      simp [hok.nodes g hg])).bind (Y1.bind ((Yields.orPanic (by rw [t1]; exact heads_some _ _)).bind
      ((Yields.orPanic (node_tables logG)).bind ?_))))))
    rw [hp, hv]
    refine Y2.bind ((Yields.orPanic (by rw [t2]; exact heads_some _ _)).bind ?_)
    rw [← hhl, ← hp2]
    refine (Yields.orPanic lv.2).bind (Y3.bind ((Yields.orPanic (by rw [t3]; exact heads_some _ _)).bind
      ((Yields.orPanic rv.2).bind ((Yields.orPanic hm).bind ?_))))
    rw [show n + 4 * qa.length + 4 * logG + 4 * logG = n + 4 * (qa.length + 2 * logG) by ring]
    refine S.bind (yields_pure ?_)
    rw [hpie, ← List.append_assoc poly1, hrs, hr0, hr1]

end Zkp.Hx
