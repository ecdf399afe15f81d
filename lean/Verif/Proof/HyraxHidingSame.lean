/- One layer of Hyrax's prover with challenges fixed beforehand: two witnesses, the same messages. -/
import Verif.Proof.HyraxHidingZk
import Verif.Spec.HyraxDraw
import Mathlib.Tactic.Choose
import Mathlib.Tactic.Module
import Mathlib.Tactic.LinearCombination

set_option linter.unusedSectionVars false
set_option linter.unusedSimpArgs false

namespace Zkp.Hx

open Zkp.Ml Zkp.Spartan Zkp.Gkr Zkp.Cp Zkp.Sc Polynomial

variable {F : Type} [Field F] {G : Type} [AddCommGroup G] [Module F G] [DecidableEq F] [DecidableEq G]

theorem range_getD {α : Type} (f : Nat → α) (n : Nat) (e : α) (i : Nat) (h : i < n) : ((List.range n).map f).getD i e = f i := by
  rw [List.getD_eq_getElem _ _ (by simpa using h)]; simp

theorem evalPos_flat (logN logG j : Nat) : evalPos logN logG logG j = j := by
  unfold evalPos; split <;> omega

/-- The masks of a round are determined by the opening. -/
theorem mask_commit (gs : List G) (h : G) (c : F) (p d p' d' : List F) (a r a' r' : F) (hl : p.length = d.length)
    (hl' : p'.length = d'.length) (hp : commitVec gs p h a = commitVec gs p' h a')
    (hz : List.zipWith (fun x y => c * x + y) p d = List.zipWith (fun x y => c * x + y) p' d') (hr : c * a + r = c * a' + r') :
    commitVec gs d h r = commitVec gs d' h r' := by
  have e := commitVec_lin gs h p d hl c a r
  have e' := commitVec_lin gs h p' d' hl' c a' r'
  rw [← hz, ← hr, ← e, hp] at e'
  exact (add_left_cancel e').symm

theorem zk_same {ch : Oracle F G} (ho : Oblivious ch) (params : Params G) (hs1 : Spans F params.gen1.h)
    (hs3 : Spans F params.gen3.h) (hs4 : Spans F params.gen4.h) (claim claim' u0 u1 : F) (qa ql qr : List F) (gates : List Gate)
    (evals evals' : List (List F)) (logN n : Nat) (m m' : Mat F) (pie vals pie' vals' : List F) (x y x' y' : F)
    (R : ZkRun ch params claim u0 u1 qa ql qr gates evals logN ql.length n m pie vals x y)
    (R' : ZkRun ch params claim' u0 u1 qa ql qr gates evals' logN ql.length n m' pie' vals' x' y') (a0 : G) (rc0 rc0' : F)
    (ha : a0 = commitVec params.gen1.generators [claim] params.gen1.h rc0)
    (ha' : a0 = commitVec params.gen1.generators [claim'] params.gen1.h rc0') (d : ZkDraw F) (hd : d.Ok logN ql.length) :
    ∃ (d' : ZkDraw F) (proof : ZkProof F G), d'.Ok logN ql.length ∧
      proof.x = commitVec params.gen1.generators [x] params.gen1.h d.x ∧
      proof.y = commitVec params.gen1.generators [y] params.gen1.h d.y ∧
      commitVec params.gen1.generators [x] params.gen1.h d.x = commitVec params.gen1.generators [x'] params.gen1.h d'.x ∧
      commitVec params.gen1.generators [y] params.gen1.h d.y = commitVec params.gen1.generators [y'] params.gen1.h d'.y ∧
      Yields (zkProve ch params claim a0 rc0 u0 u1 qa ql qr gates evals (2 ^ logN) (2 ^ ql.length) d.rand) n
        (proof, (zkChals ch n logN, zkChals ch (n + 4 * logN) ql.length, zkChals ch (n + 4 * logN + 4 * ql.length) ql.length), x, y)
        (n + 6 * (logN + 2 * ql.length) + 10) ∧
      Yields (zkProve ch params claim' a0 rc0' u0 u1 qa ql qr gates evals' (2 ^ logN) (2 ^ ql.length) d'.rand) n
        (proof, (zkChals ch n logN, zkChals ch (n + 4 * logN) ql.length, zkChals ch (n + 4 * logN + 4 * ql.length) ql.length), x', y')
        (n + 6 * (logN + 2 * ql.length) + 10) := by
  obtain rfl : m' = m := Option.some.inj (R'.matrix.symm.trans R.matrix)
  obtain ⟨logG, hG⟩ : ∃ g, g = ql.length := ⟨_, rfl⟩
  obtain ⟨c, hc⟩ : ∃ c, c = zkC ch n logN logG := ⟨_, rfl⟩
  obtain ⟨rou, hrou⟩ : ∃ r, r = zkRou ch n logN logG := ⟨_, rfl⟩
  obtain ⟨j, hj⟩ : ∃ j, j = jVec rou m' (logN + 2 * logG + 1) := ⟨_, rfl⟩
  obtain ⟨w, hw⟩ : ∃ w, w = 4 * logN + 6 * logG := ⟨_, rfl⟩
  obtain ⟨bx, hbx⟩ := hs1.blind params.gen1.generators (commitVec params.gen1.generators [x] params.gen1.h d.x) [x']
  obtain ⟨b_y, hby⟩ := hs1.blind params.gen1.generators (commitVec params.gen1.generators [y] params.gen1.h d.y) [y']
  obtain ⟨bz, hbz⟩ := hs1.blind params.gen1.generators (commitVec params.gen1.generators [x * y] params.gen1.h d.z) [x' * y']
  obtain ⟨b1, b2, b3, b4, b5, prod, P, P'⟩ := product_same ho params.gen1 x d.x y d.y d.z x' bx y' b_y bz hbx.symm hby.symm hbz.symm
    d.b1 d.b2 d.b3 d.b4 d.b5 (n + 4 * (logN + 2 * ql.length))
  have hal : ∀ i, ∃ a : F, (if i < logN then
      commitVec params.gen4.generators (coef (fun k => pie'.getD k 0) logN i) params.gen4.h a else
      commitVec params.gen3.generators (coef (fun k => pie'.getD k 0) logN i) params.gen3.h a) = (if i < logN then
      commitVec params.gen4.generators (coef (fun k => pie.getD k 0) logN i) params.gen4.h (d.alpha.getD i 0) else
      commitVec params.gen3.generators (coef (fun k => pie.getD k 0) logN i) params.gen3.h (d.alpha.getD i 0)) := by
    intro i
    by_cases h : i < logN
    · simp only [if_pos h]; exact hs4.blind _ _ _
    · simp only [if_neg h]; exact hs3.blind _ _ _
  choose al hal using hal
  have hev : ∀ i, ∃ a : F, commitVec params.gen1.generators [vals'.getD i 0] params.gen1.h a =
      commitVec params.gen1.generators [vals.getD i 0] params.gen1.h (d.alphaEval.getD i 0) := fun i => hs1.blind _ _ _
  choose ev hev using hev
  obtain ⟨dm, hdm⟩ : ∃ dm : Nat → F, dm = fun k => c * pie.getD k 0 + d.d.getD k 0 - c * pie'.getD k 0 := ⟨_, rfl⟩
  obtain ⟨rd, hrd⟩ : ∃ rd : Nat → F, rd = fun k => c * d.alpha.getD k 0 + d.rDelta.getD k 0 - c * al k := ⟨_, rfl⟩
  obtain ⟨rc, hrc⟩ := hs1.blind params.gen1.generators (commitVec params.gen1.generators
    [((List.range w).map fun k => j k * d.d.getD k 0).sum] params.gen1.h d.c) [((List.range w).map fun k => j k * dm k).sum]
  obtain ⟨h1, h2, h3, h4⟩ := hd
  obtain ⟨d', hd'⟩ : ∃ d' : ZkDraw F, d' = ⟨(List.range (logN + 2 * logG)).map al, (List.range (logN + 2 * logG)).map ev, bx, b_y, bz,
    b1, b2, b3, b4, b5, (List.range w).map dm, (List.range (logN + 2 * logG)).map rd, rc⟩ := ⟨_, rfl⟩
  have g1 : ∀ i < logN + 2 * logG, d'.rand.alpha i = al i := fun i hi => by rw [hd']; exact range_getD _ _ _ _ hi
  have g2 : ∀ i < logN + 2 * logG, d'.rand.alphaEval i = ev i := fun i hi => by rw [hd']; exact range_getD _ _ _ _ hi
  have g3 : ∀ i < w, d'.rand.d i = dm i := fun i hi => by rw [hd']; exact range_getD _ _ _ _ hi
  have g4 : ∀ i < logN + 2 * logG, d'.rand.rDelta i = rd i := fun i hi => by rw [hd']; exact range_getD _ _ _ _ hi
  have e1 : d'.rand.x = bx := by rw [hd']; rfl
  have e2 : d'.rand.y = b_y := by rw [hd']; rfl
  have e3 : d'.rand.z = bz := by rw [hd']; rfl
  have e4 : d'.rand.c = rc := by rw [hd']; rfl
  have Y := R.run a0 rc0 d.rand prod P
  have Y' := R'.run a0 rc0' d'.rand prod (by rw [← hbx, ← hby, ← hbz] at P'; rw [hd']; exact P')
  refine ⟨d', _, ?_, rfl, rfl, ?_, ?_, Y, ?_⟩
  · rw [hd', ← hG]
    simp [ZkDraw.Ok, hw]
  · rw [hd']; exact hbx.symm
  · rw [hd']; exact hby.symm
  · rw [← hG, ← hc, ← hrou, ← hj] at Y' ⊢
    convert Y' using 2
    unfold zkOut
    rw [e1, e2, e3, e4, hbx, hby, hbz]
    have hjd : ((List.range w).map fun k => j k * d'.rand.d k) = (List.range w).map fun k => j k * dm k :=
      List.map_congr_left fun k hk => by rw [g3 k (List.mem_range.1 hk)]
    rw [← hw, hjd, hrc]
    have hpoly : polyComms params d.rand.alpha logN logG pie = polyComms params d'.rand.alpha logN logG pie' := by
      unfold polyComms
      refine List.map_congr_left fun i hi => ?_
      rw [g1 i (List.mem_range.1 hi)]
      exact (hal i).symm
    have heval : evalComms params d.rand.alphaEval logN logG logG vals = evalComms params d'.rand.alphaEval logN logG logG vals' := by
      unfold evalComms
      refine List.map_congr_left fun i hi => ?_
      rw [evalPos_flat, g2 i (List.mem_range.1 hi)]
      exact (hev i).symm
    have hz : ∀ k < w, c * pie.getD k 0 + d.d.getD k 0 = c * pie'.getD k 0 + d'.rand.d k := fun k hk => by
      rw [g3 k hk, hdm]; ring
    have hzd : ∀ k < logN + 2 * logG, c * d.alpha.getD k 0 + d.rDelta.getD k 0 = c * d'.rand.alpha k + d'.rand.rDelta k :=
      fun k hk => by rw [g1 k hk, g4 k hk, hrd]; ring
    have hdel : deltaCommits params d.rand logG logN = deltaCommits params d'.rand logG logN := by
      unfold deltaCommits
      refine List.map_congr_left fun i hi => ?_
      have hi := List.mem_range.1 hi
      have ha := hal i
      rw [← g1 i hi] at ha
      by_cases h : i < logN
      · simp only [if_pos h, coef] at ha ⊢
        refine mask_commit _ _ c _ _ _ _ _ _ _ _ (by simp) (by simp) ha.symm ?_ (hzd i hi)
        simp only [List.zipWith_cons_cons, List.zipWith_nil_right, Nat.mul_comm 4 i]
        have q : ∀ k < w, c * pie.getD k 0 + d.rand.d k = c * pie'.getD k 0 + d'.rand.d k := hz
        rw [q _ (by omega), q _ (by omega), q _ (by omega), q _ (by omega)]
      · simp only [if_neg h, coef] at ha ⊢
        refine mask_commit _ _ c _ _ _ _ _ _ _ _ (by simp) (by simp) ha.symm ?_ (hzd i hi)
        simp only [List.zipWith_cons_cons, List.zipWith_nil_right, Nat.mul_comm 3 i]
        have q : ∀ k < w, c * pie.getD k 0 + d.rand.d k = c * pie'.getD k 0 + d'.rand.d k := hz
        rw [q _ (by omega), q _ (by omega), q _ (by omega)]
    have hZ : ((List.range w).map fun k => c * pie.getD k 0 + d.rand.d k) =
        (List.range w).map fun k => c * pie'.getD k 0 + d'.rand.d k :=
      List.map_congr_left fun k hk => hz k (List.mem_range.1 hk)
    have hZd : ((List.range (logN + 2 * logG)).map fun k => c * d.rand.alpha k + d.rand.rDelta k) =
        (List.range (logN + 2 * logG)).map fun k => c * d'.rand.alpha k + d'.rand.rDelta k :=
      List.map_congr_left fun k hk => hzd k (List.mem_range.1 hk)
    have hzc : c * (rou.getD 0 0 * rc0 - j w * d.x - j (w + 1) * d.y - j (w + 2) * d.z) + d.c =
        c * (rou.getD 0 0 * rc0' - j w * bx - j (w + 1) * b_y - j (w + 2) * bz) + rc := by
      have D := R.dot rou
      have D' := R'.dot rou
      rw [← hG, ← hj, ← hw] at D D'
      have hsum : c * ∑ k ∈ Finset.range w, j k * pie.getD k 0 + ((List.range w).map fun k => j k * d.d.getD k 0).sum =
          c * ∑ k ∈ Finset.range w, j k * pie'.getD k 0 + ((List.range w).map fun k => j k * dm k).sum := by
        rw [Bp.range_map_sum, Bp.range_map_sum, Finset.mul_sum, Finset.mul_sum, ← Finset.sum_add_distrib,
          ← Finset.sum_add_distrib]
        refine Finset.sum_congr rfl fun k _ => ?_
        rw [hdm]; ring
      rw [D, D'] at hsum
      apply hs1.inj
      rw [ha] at ha'
      simp only [gen_commit] at ha' hbx hby hbz hrc
      have hg := congrArg (fun s : F => s • params.gen1.generators.headD 0) hsum
      linear_combination (norm := module) (c * rou.getD 0 0) • ha' + (c * j w) • hbx + (c * j (w + 1)) • hby +
        (c * j (w + 2)) • hbz - hrc - hg
    rw [hpoly, heval, hdel, hZ, hZd]
    congr 1

theorem eq_of_getD {α : Type} {a b : List α} {n : Nat} (e : α) (ha : a.length = n) (hb : b.length = n)
    (h : ∀ i < n, a.getD i e = b.getD i e) : a = b := by
  apply List.ext_getElem (ha.trans hb.symm)
  intro i h1 h2
  have := h i (by omega)
  rwa [List.getD_eq_getElem _ _ h1, List.getD_eq_getElem _ _ h2] at this

theorem map_range_inj {α : Type} {f g : Nat → α} {n : Nat} (h : (List.range n).map f = (List.range n).map g) : ∀ i < n, f i = g i := by
  intro i hi
  exact (List.map_inj_left.1 h) i (List.mem_range.2 hi)

theorem zk_inj {ch : Oracle F G} (ho : Oblivious ch) (params : Params G) (hs1 : Spans F params.gen1.h)
    (hs3 : Spans F params.gen3.h) (hs4 : Spans F params.gen4.h) (claim u0 u1 : F) (qa ql qr : List F) (gates : List Gate)
    (evals : List (List F)) (logN n : Nat) (m : Mat F) (pie vals : List F) (x y : F)
    (R : ZkRun ch params claim u0 u1 qa ql qr gates evals logN ql.length n m pie vals x y) (a0 : G) (rc0 : F)
    (d d' : ZkDraw F) (hd : d.Ok logN ql.length) (hd' : d'.Ok logN ql.length) (n1 n2 : Nat) (proof : ZkProof F G)
    (u v : (List F × List F × List F) × F × F)
    (H : Yields (zkProve ch params claim a0 rc0 u0 u1 qa ql qr gates evals (2 ^ logN) (2 ^ ql.length) d.rand) n (proof, u) n1)
    (H' : Yields (zkProve ch params claim a0 rc0 u0 u1 qa ql qr gates evals (2 ^ logN) (2 ^ ql.length) d'.rand) n (proof, v) n2) :
    d = d' := by
  have P := product_yields ho params.gen1 x d.rand.x y d.rand.y (x * y) d.rand.z d.rand.b1 d.rand.b2 d.rand.b3 d.rand.b4 d.rand.b5
    (n + 4 * (logN + 2 * ql.length))
  have P' := product_yields ho params.gen1 x d'.rand.x y d'.rand.y (x * y) d'.rand.z d'.rand.b1 d'.rand.b2 d'.rand.b3 d'.rand.b4
    d'.rand.b5 (n + 4 * (logN + 2 * ql.length))
  have Y := R.run a0 rc0 d.rand _ P
  have Y' := R.run a0 rc0 d'.rand _ P'
  have e := ((Prod.mk.inj (Y.unique H).1).1).trans ((Prod.mk.inj (Y'.unique H').1).1).symm
  unfold zkOut at e
  obtain ⟨q1, -, q3, q4, q5, q6, q7, q8, q9, q10, q11, q12⟩ := ZkProof.mk.inj e
  have hx : d.x = d'.x := hs1.blind_inj q4
  have hy : d.y = d'.y := hs1.blind_inj q5
  have hz : d.z = d'.z := hs1.blind_inj q6
  rw [q1, show d.rand.x = d'.rand.x from hx, show d.rand.y = d'.rand.y from hy, show d.rand.z = d'.rand.z from hz] at P
  obtain ⟨p1, p2, p3, p4, p5⟩ := product_inj ho params.gen1 _ _ _ _ _ _ _ _ _ _ _ _ _ _ _ _ _ _ _ _ _ _ P P'
  obtain ⟨l1, l2, l3, l4⟩ := hd
  obtain ⟨l1', l2', l3', l4'⟩ := hd'
  have ha : d.alpha = d'.alpha := by
    refine eq_of_getD 0 l1 l1' fun i hi => ?_
    have := map_range_inj q7 i hi
    by_cases h : i < logN
    · simp only [if_pos h] at this; exact hs4.blind_inj this
    · simp only [if_neg h] at this; exact hs3.blind_inj this
  have he : d.alphaEval = d'.alphaEval := by
    refine eq_of_getD 0 l2 l2' fun i hi => ?_
    have := map_range_inj q8 i hi
    rw [evalPos_flat] at this
    exact hs1.blind_inj this
  have hm : d.d = d'.d := eq_of_getD 0 l3 l3' fun i hi => add_left_cancel (map_range_inj q10 i hi)
  have hr : d.rDelta = d'.rDelta := eq_of_getD 0 l4 l4' fun i hi => by
    have := map_range_inj q11 i hi
    rw [show d.rand.alpha i = d'.rand.alpha i by show d.alpha.getD i 0 = _; rw [ha]; rfl] at this
    exact add_left_cancel this
  have hc : d.c = d'.c := by
    rw [show d.rand.x = d'.rand.x from hx, show d.rand.y = d'.rand.y from hy, show d.rand.z = d'.rand.z from hz] at q12
    exact add_left_cancel q12
  cases d; cases d'
  simp only [ZkDraw.rand] at *
  subst_vars
  rfl

end Zkp.Hx
