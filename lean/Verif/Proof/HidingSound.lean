/- Soundness of the steps of Spartan's verifier on committed values, for commitments to which linear functionals
assign the committed values. -/
import Mathlib.LinearAlgebra.Basis.VectorSpace
import Verif.Proof.SumCheckSound
import Verif.Proof.SumCheckHiding
import Verif.Proof.CommitEval

namespace Zkp.Sc

open Zkp.Ml Zkp.Spartan Polynomial
open Zkp.Cp (evalEq_getD bind_inv say_inv challenge_inv ensure_inv orPanic_inv pure_inv)

set_option linter.unusedSectionVars false
set_option linter.unusedSimpArgs false

variable {F : Type} [Field F] {G : Type} [AddCommGroup G] [Module F G] [DecidableEq F] [DecidableEq G]

/-! ### Positions in a transcript -/

/-- The points said one at a time in a transcript. -/
def said : Transcript F G → List G
  | [] => []
  | .pt _ p :: t => p :: said t
  | _ :: t => said t

theorem said_append (a b : Transcript F G) : said (a ++ b) = said a ++ said b := by
  induction a with
  | nil => rfl
  | cons m a ih => cases m <;> simp [said, ih]

/-- Between the first transcript and the second the points `a` were said and the challenges `b` drawn. -/
structure At (ch : Oracle F G) (tr t : Transcript F G) (a : List G) (b : List F) : Prop where
  pre : tr <+: t
  pts : said t = said tr ++ a
  chs : drawn ch t = drawn ch tr ++ b

theorem At.refl (ch : Oracle F G) (tr : Transcript F G) : At ch tr tr [] [] := ⟨List.prefix_rfl, by simp, by simp⟩

theorem At.pt {ch : Oracle F G} {tr t : Transcript F G} {a : List G} {b : List F} (h : At ch tr t a b) (l : String)
    (p : G) : At ch tr (t ++ [.pt l p]) (a ++ [p]) b := by
  refine ⟨h.pre.trans (List.prefix_append _ _), ?_, ?_⟩
  · rw [said_append, h.pts]; simp [said]
  · rw [← h.chs]; unfold drawn; rw [drawnFrom_append]; simp [drawnFrom]

theorem At.chal {ch : Oracle F G} {tr t : Transcript F G} {a : List G} {b : List F} (h : At ch tr t a b) (l : String) :
    At ch tr (t ++ [.chal l]) a (b ++ [ch (t ++ [.chal l])]) := by
  refine ⟨h.pre.trans (List.prefix_append _ _), ?_, ?_⟩
  · rw [said_append, h.pts]; simp [said]
  · rw [drawn_chal, h.chs, List.append_assoc]

theorem At.frs {ch : Oracle F G} {tr t : Transcript F G} {a : List G} {b : List F} (h : At ch tr t a b) (l : String)
    (x : List F) : At ch tr (t ++ [.frs l x]) a b := by
  refine ⟨h.pre.trans (List.prefix_append _ _), ?_, ?_⟩
  · rw [said_append, h.pts]; simp [said]
  · rw [drawn_frs, h.chs]

theorem At.pts' {ch : Oracle F G} {tr t : Transcript F G} {a : List G} {b : List F} (h : At ch tr t a b) (l : String)
    (x : List G) : At ch tr (t ++ [.pts l x]) a b := by
  refine ⟨h.pre.trans (List.prefix_append _ _), ?_, ?_⟩
  · rw [said_append, h.pts]; simp [said]
  · rw [← h.chs]; unfold drawn; rw [drawnFrom_append]; simp [drawnFrom]

theorem At.trans {ch : Oracle F G} {tr t u : Transcript F G} {a a' : List G} {b b' : List F} (h : At ch tr t a b)
    (h' : At ch t u a' b') : At ch tr u (a ++ a') (b ++ b') :=
  ⟨h.pre.trans h'.pre, by rw [h'.pts, h.pts, List.append_assoc], by rw [h'.chs, h.chs, List.append_assoc]⟩

/-- Some challenge between the two transcripts lies in the set that belongs to the points and challenges since the
first one. -/
def HitFrom (ch : Oracle F G) (B : List G → List F → Finset F) (tr tr' : Transcript F G) : Prop :=
  ∃ t l a b, At ch tr t a b ∧ t ++ [.chal l] <+: tr' ∧ ch (t ++ [.chal l]) ∈ B a b

theorem HitFrom.lift {ch : Oracle F G} {B B' : List G → List F → Finset F} {tr tr1 tr2 tr3 : Transcript F G}
    {a : List G} {b : List F} (h : HitFrom ch B' tr1 tr2) (hat : At ch tr tr1 a b)
    (hB : ∀ ps vs, B' ps vs ⊆ B (a ++ ps) (b ++ vs)) (hp : tr2 <+: tr3) : HitFrom ch B tr tr3 := by
  obtain ⟨t, l, a', b', h1, h2, h3⟩ := h
  exact ⟨t, l, a ++ a', b ++ b', hat.trans h1, h2.trans hp, hB _ _ h3⟩

theorem HitFrom.hit {ch : Oracle F G} {B : List G → List F → Finset F} {tr tr' : Transcript F G}
    (h : HitFrom ch B tr tr') (hd : drawn ch tr = []) :
    Hit ch (fun t vs => B ((said t).drop (said tr).length) vs) tr tr' := by
  obtain ⟨t, l, a, b, h1, h2, h3⟩ := h
  refine ⟨t, l, h1.pre, h2, ?_⟩
  beta_reduce
  rw [h1.pts, List.drop_left, h1.chs, hd, List.nil_append]
  exact h3

/-! ### Equations of degree one in a challenge -/

theorem fewRoots_one {P : F → Prop} (hu : ∀ x y, P x → P y → x = y) {x : F} (hx : P x) : x ∈ fewRoots 1 P :=
  fewRoots_mem (X - C x) (X_sub_C_ne_zero x) (natDegree_X_sub_C x).le
    (fun y hy => by rw [hu y x hy hx]; simp) hx

theorem lin_one {a b e g c : F} (hne : a ≠ b) (hc : c * a + e = c * b + g) :
    c ∈ fewRoots 1 fun c => c * a + e = c * b + g :=
  fewRoots_one (fun x y hx hy => by
    have h : (x - y) * (a - b) = 0 := by linear_combination hx - hy
    rcases mul_eq_zero.1 h with h | h
    · exact sub_eq_zero.1 h
    · exact absurd (sub_eq_zero.1 h) hne) hc

theorem span_one {S : Submodule F G} {v w : G} (hv : v ∉ S) {c : F} (hc : c • v + w ∈ S) :
    c ∈ fewRoots 1 fun c => c • v + w ∈ S :=
  fewRoots_one (fun x y hx hy => by
    have h : (x - y) • v ∈ S := by
      have := S.sub_mem hx hy
      rwa [show x • v + w - (y • v + w) = (x - y) • v by module] at this
    by_contra hxy
    exact hv ((S.smul_mem_iff (sub_ne_zero.2 hxy)).1 h)) hc

/-! ### Values of commitments -/

/-- The functionals `φ` read off the coefficients of the generators and vanish at `h`. -/
structure Reads (gens : List G) (h : G) (φ : Nat → G →ₗ[F] F) : Prop where
  gen : ∀ j k, k < gens.length → φ j (gens.getD k 0) = if j = k then 1 else 0
  blind : ∀ j, φ j h = 0

theorem map_msm (ψ : G →ₗ[F] F) (gens : List G) (z : List F) :
    ψ (msm gens z) = ∑ k ∈ Finset.range gens.length, z.getD k 0 * ψ (gens.getD k 0) := by
  induction gens generalizing z with
  | nil => simp
  | cons g gens ih =>
    cases z with
    | nil => simp
    | cons a z =>
      rw [msm_cons, map_add, map_smul, ih, List.length_cons, Finset.sum_range_succ']
      simp [add_comm]

theorem Reads.commit {gens : List G} {h : G} {φ : Nat → G →ₗ[F] F} (hr : Reads gens h φ) (z : List F) (s : F)
    (j : Nat) (hj : j < gens.length) : φ j (commitVec gens z h s) = z.getD j 0 := by
  unfold commitVec
  rw [map_add, map_smul, hr.blind, smul_zero, add_zero, map_msm, Finset.sum_eq_single j]
  · rw [hr.gen j j hj]; simp
  · intro k hk hkj
    rw [hr.gen j k (Finset.mem_range.1 hk), if_neg (Ne.symm hkj), mul_zero]
  · intro hj'; exact absurd (Finset.mem_range.2 hj) hj'

/-- The values that the functionals read from a commitment. -/
def coeffs (φ : Nat → G →ₗ[F] F) (n : Nat) (c : G) : List F := (List.range n).map fun j => φ j c

theorem coeffs_length (φ : Nat → G →ₗ[F] F) (n : Nat) (c : G) : (coeffs φ n c).length = n := by simp [coeffs]

theorem coeffs_lin (φ : Nat → G →ₗ[F] F) (n : Nat) (c : F) (x d : G) :
    coeffs φ n (c • x + d) = List.zipWith (fun p d => c * p + d) (coeffs φ n x) (coeffs φ n d) := by
  apply List.ext_getElem
  · simp [coeffs]
  · intro i h1 h2
    simp [coeffs]

/-! ### One committed round -/

/-- The bad challenges of committed rounds, from the points said and the challenges drawn since the first. -/
noncomputable def badSc (φ : Nat → G →ₗ[F] F) (ψ : G →ₗ[F] F) (S : Submodule F G) (extra : Finset F) (d size : Nat)
    (f : (Nat → F) → F) : List (List F) → List G → List F → Finset F
  | ts, ps, [] => badRound d f ts (coeffs φ size (ps.getD 0 0)) ∪ extra
  | _, _, [_] => {0}
  | _, ps, [r, w0] =>
    (fewRoots 1 fun w1 => w1 * ψ (ps.getD 2 0) + w0 * ψ (ps.getD 1 0) =
      w1 * polyEval (coeffs φ size (ps.getD 0 0)) r +
        w0 * (polyEval (coeffs φ size (ps.getD 0 0)) 0 + polyEval (coeffs φ size (ps.getD 0 0)) 1)) ∪
    fewRoots 1 fun w1 => w1 • ps.getD 2 0 + w0 • ps.getD 1 0 ∈ S
  | _, ps, [r, w0, w1] =>
    (fewRoots 1 fun c => c * ψ (ps.getD 4 0) + ψ (ps.getD 6 0) =
      c * dot (coeffs φ size (ps.getD 3 0)) (evalCoeffs w0 w1 r size) +
        dot (evalCoeffs w0 w1 r size) (coeffs φ size (ps.getD 5 0))) ∪
    fewRoots 1 fun c => c • ps.getD 4 0 + ps.getD 6 0 ∈ S
  | ts, ps, r :: _ :: _ :: _ :: vs => badSc φ ψ S extra d size f (ts.map (folded · r)) (ps.drop 7) vs

theorem badSc_card (φ : Nat → G →ₗ[F] F) (ψ : G →ₗ[F] F) (S : Submodule F G) (extra : Finset F) (d size D : Nat)
    (hd : d + extra.card ≤ D) (hD : 2 ≤ D)
    (f : (Nat → F) → F) (ts : List (List F)) (ps : List G) (vs : List F) :
    (badSc φ ψ S extra d size f ts ps vs).card ≤ D := by
  have two : ∀ P Q : F → Prop, (fewRoots 1 P ∪ fewRoots 1 Q).card ≤ D := fun P Q =>
    (Finset.card_union_le _ _).trans (by have := fewRoots_card 1 P; have := fewRoots_card 1 Q; omega)
  fun_induction badSc φ ψ S extra d size f ts ps vs with
  | case1 => exact (Finset.card_union_le _ _).trans ((Nat.add_le_add_right (fewRoots_card _ _) _).trans hd)
  | case2 => simp; omega
  | case3 => exact two _ _
  | case4 => exact two _ _
  | case5 _ _ _ _ _ _ _ ih => exact ih

/-- The points of the rounds among all challenges of the rounds. -/
def scPoints : List F → List F
  | r :: _ :: _ :: _ :: vs => r :: scPoints vs
  | _ => []

theorem scEval_inv {ch : Oracle F G} {gen1 genN : MultiParams G} {cp ce cc : G} {p : ScEvalProof F G} {r : F}
    {size : Nat} {tr tr' : Transcript F G} (h : scEvalVerify ch gen1 genN cp ce cc p r size tr = .ok (true, tr')) :
    ∃ w0 w1 c t0 t1 t2, t0 = tr ∧ w0 = ch (t0 ++ [.chal "combine_two_claims_to_one"]) ∧
      t1 = t0 ++ [.chal "combine_two_claims_to_one"] ∧ w1 = ch (t1 ++ [.chal "combine_two_claims_to_one"]) ∧
      t2 = t1 ++ [.chal "combine_two_claims_to_one"] ++ [.pt "Cx" cp] ++ [.pt "Cy" (w0 • cc + w1 • ce)] ++
        [.pt "delta" p.dCommit] ++ [.pt "beta" p.dotCdCommit] ∧ c = ch (t2 ++ [.chal "c"]) ∧ tr' = t2 ++ [.chal "c"] ∧
      c • cp + p.dCommit = commitVec genN.generators p.z genN.h p.zDelta ∧ size ≤ p.z.length ∧
      c • (w0 • cc + w1 • ce) + p.dotCdCommit =
        commitVec gen1.generators [(List.zipWith (· * ·) p.z (evalCoeffs w0 w1 r size)).sum] gen1.h p.zBeta := by
  unfold scEvalVerify at h
  obtain ⟨w0, _, h1, h⟩ := bind_inv h
  obtain ⟨e0, rfl⟩ := challenge_inv h1
  obtain ⟨w1, _, h1, h⟩ := bind_inv h
  obtain ⟨e1, rfl⟩ := challenge_inv h1
  obtain ⟨_, _, h1, h⟩ := bind_inv h
  obtain rfl := say_inv h1
  obtain ⟨_, _, h1, h⟩ := bind_inv h
  obtain rfl := say_inv h1
  obtain ⟨_, _, h1, h⟩ := bind_inv h
  obtain rfl := say_inv h1
  obtain ⟨_, _, h1, h⟩ := bind_inv h
  obtain rfl := say_inv h1
  obtain ⟨c, _, h1, h⟩ := bind_inv h
  obtain ⟨e2, rfl⟩ := challenge_inv h1
  obtain ⟨_, _, h1, h⟩ := bind_inv h
  obtain ⟨e3, rfl⟩ := ensure_inv h1
  obtain ⟨e4, rfl⟩ := pure_inv h
  simp only [Bool.and_eq_true, decide_eq_true_eq] at e4 e3
  exact ⟨w0, w1, c, _, _, _, rfl, e0.symm, rfl, e1.symm, rfl, e2.symm, rfl, e4.1, e3, e4.2⟩

theorem getD_mid (a b : List G) (x : G) : (a ++ x :: b).getD a.length 0 = x := by simp

set_option maxHeartbeats 1600000 in
/-- A false claim about tables, committed to, stays false through the committed rounds, or some challenge was bad. -/
theorem scRounds_sound {d e size : Nat} {f : (Nat → F) → F} (hf : SummandDeg e f) (he : e ≤ d) (hs : size = d + 1)
    (ch : Oracle F G) (gen1 genN : MultiParams G) (φ : Nat → G →ₗ[F] F) (ψ : G →ₗ[F] F) (S : Submodule F G)
    (extra : Finset F) (hφ : Reads genN.generators genN.h φ) (hg : genN.generators.length = size)
    (hψ : ∀ x s : F, ψ (commitVec gen1.generators [x] gen1.h s) = x)
    (hS : ∀ x s : F, commitVec gen1.generators [x] gen1.h s ∈ S)
    (proof : ScProof F G) (k i : Nat) (claim final : G) (rs : List F) (tr tr' : Transcript F G)
    (h : scRounds ch gen1 genN proof size k i claim tr = .ok ((rs, final), tr'))
    (ts : List (List F)) (ht : TablesOk k ts) :
    ∃ a b, At ch tr tr' a b ∧ a.length = 7 * k ∧ b.length = 4 * k ∧ rs = scPoints b ∧ rs.length = k ∧
      (ψ claim ≠ total f ts → HitFrom ch (badSc φ ψ S extra d size f ts) tr tr' ∨
        (ψ final ≠ (f fun i => (ts.map fun t => mle t rs).getD i 0) ∧ (0 < k → final ∈ S) ∧ ∀ r ∈ rs, r ∉ extra)) := by
  induction k generalizing i claim rs tr ts with
  | zero =>
    unfold scRounds at h
    obtain ⟨h1, rfl⟩ := pure_inv h
    obtain ⟨rfl, rfl⟩ : [] = rs ∧ claim = final := by simpa using h1
    refine ⟨[], [], At.refl _ _, rfl, rfl, rfl, rfl, fun hne => Or.inr ⟨?_, fun h0 => absurd h0 (by omega), by simp⟩⟩
    rw [← total_final f ts ht.1, ← foldMany_all ts [] ht.2]
    exact hne
  | succ k ih =>
    unfold scRounds at h
    obtain ⟨cp, _, h1, h⟩ := bind_inv h
    obtain ⟨_, rfl⟩ := orPanic_inv h1
    obtain ⟨ce, _, h1, h⟩ := bind_inv h
    obtain ⟨_, rfl⟩ := orPanic_inv h1
    obtain ⟨p, _, h1, h⟩ := bind_inv h
    obtain ⟨_, rfl⟩ := orPanic_inv h1
    obtain ⟨_, _, h1, h⟩ := bind_inv h
    obtain rfl := say_inv h1
    obtain ⟨r, _, h1, h⟩ := bind_inv h
    obtain ⟨hr, rfl⟩ := challenge_inv h1
    obtain ⟨_, _, h1, h⟩ := bind_inv h
    obtain rfl := say_inv h1
    obtain ⟨_, _, h1, h⟩ := bind_inv h
    obtain rfl := say_inv h1
    obtain ⟨ok, tr1, hev, h⟩ := bind_inv h
    obtain ⟨_, _, h1, h⟩ := bind_inv h
    obtain ⟨rfl, rfl⟩ := ensure_inv h1
    obtain ⟨⟨rs', fin⟩, tr2, hrec, h⟩ := bind_inv h
    obtain ⟨h1, rfl⟩ := pure_inv h
    obtain ⟨rfl, rfl⟩ : r :: rs' = rs ∧ fin = final := by simpa using h1
    obtain ⟨w0, w1, c, t0, t1, t2, ht0, hw0, ht1, hw1, ht2, hc, ht3, q1, q2, q3⟩ := scEval_inv hev
    -- positions
    have p0 : At ch tr (tr ++ [.pt "comm_poly" cp]) [cp] [] := (At.refl ch tr).pt _ _
    have p1 : At ch tr t0 [cp, claim, ce] [r] := by
      have := ((p0.chal "challenge_nextround").pt "comm_claim_per_round" claim).pt "comm_eval" ce
      rw [hr] at this
      rw [ht0]; exact this
    have p2 : At ch tr t1 [cp, claim, ce] [r, w0] := by
      have := p1.chal "combine_two_claims_to_one"
      rw [← hw0] at this
      rw [ht1]; exact this
    have p3 : At ch tr t2 [cp, claim, ce, cp, w0 • claim + w1 • ce, p.dCommit, p.dotCdCommit] [r, w0, w1] := by
      have := ((((p2.chal "combine_two_claims_to_one").pt "Cx" cp).pt "Cy" (w0 • claim + w1 • ce)).pt "delta" p.dCommit).pt
        "beta" p.dotCdCommit
      rw [← hw1] at this
      rw [ht2]; exact this
    have p4 : At ch tr tr1 [cp, claim, ce, cp, w0 • claim + w1 • ce, p.dCommit, p.dotCdCommit] [r, w0, w1, c] := by
      have := p3.chal "c"
      rw [← hc] at this
      rw [ht3]; exact this
    obtain ⟨a, b, r1, r2, r3, r4, r5, r6⟩ := ih (i + 1) ce rs' tr1 hrec (ts.map (folded · r)) (tablesOk_fold ht r)
    refine ⟨_, _, p4.trans r1, by simp [r2]; omega, by simp [r3]; omega, by simp [scPoints, ← r4], by simp [r5], ?_⟩
    intro hne
    have pre01 : t0 <+: t1 := by rw [ht1]; exact List.prefix_append _ _
    have pre2 : t1 ++ [.chal "combine_two_claims_to_one"] <+: t2 := by
      exact ⟨[.pt "Cx" cp, .pt "Cy" (w0 • claim + w1 • ce), .pt "delta" p.dCommit, .pt "beta" p.dotCdCommit],
        by rw [ht2]; simp⟩
    have pre3 : t2 ++ [.chal "c"] <+: tr2 := by rw [← ht3]; exact r1.pre
    have pre2' : t1 ++ [.chal "combine_two_claims_to_one"] <+: tr2 := pre2.trans ((List.prefix_append _ _).trans pre3)
    obtain ⟨x, hx⟩ : ∃ x, x = coeffs φ size cp := ⟨_, rfl⟩
    have hxl : x.length = size := by rw [hx, coeffs_length]
    -- the equation of the last challenge
    have hz : List.zipWith (fun p d => c * p + d) x (coeffs φ size p.dCommit) = p.z.take size := by
      rw [hx, ← coeffs_lin, q1]
      apply List.ext_getElem
      · simp [coeffs, q2]
      · intro j h1 h2
        simp only [coeffs, List.length_map, List.length_range] at h1
        simp only [coeffs, List.getElem_map, List.getElem_range, List.getElem_take]
        rw [hφ.commit _ _ _ (by omega), List.getD_eq_getElem _ _ (by omega)]
    have hsum : (List.zipWith (· * ·) p.z (evalCoeffs w0 w1 r size)).sum =
        c * dot x (evalCoeffs w0 w1 r size) + dot (evalCoeffs w0 w1 r size) (coeffs φ size p.dCommit) := by
      rw [dot, dot, ← zipWith_dot_lin _ _ _ _ (by rw [hxl, coeffs_length]), hz]
      congr 1
      conv_rhs => rw [← List.take_of_length_le (l := evalCoeffs w0 w1 r size) (i := size) (by rw [evalCoeffs_length])]
      rw [← List.take_zipWith, List.take_of_length_le]
      rw [List.length_zipWith, evalCoeffs_length]
      exact Nat.min_le_right _ _
    have e1 := congrArg ψ q3
    rw [hψ, hsum, map_add, map_smul, smul_eq_mul] at e1
    have e1S : c • (w0 • claim + w1 • ce) + p.dotCdCommit ∈ S := by rw [q3]; exact hS _ _
    by_cases c1 : ψ (w0 • claim + w1 • ce) = dot x (evalCoeffs w0 w1 r size)
    case neg =>
      left
      refine ⟨t2, "c", _, _, p3, pre3, ?_⟩
      rw [← hc]
      exact Finset.mem_union_left _ (by simpa [hx] using lin_one c1 e1)
    by_cases c2 : w0 • claim + w1 • ce ∈ S
    case neg =>
      left
      refine ⟨t2, "c", _, _, p3, pre3, ?_⟩
      rw [← hc]
      exact Finset.mem_union_right _ (by simpa using span_one c2 e1S)
    -- the equations of the combination
    have hdot : dot x (evalCoeffs w0 w1 r size) = w0 * (polyEval x 0 + polyEval x 1) + w1 * polyEval x r := by
      have := evalCoeffs_dot w0 w1 r x (by intro h0; rw [h0] at hxl; simp at hxl; omega)
      rw [hxl] at this
      exact this
    rw [hdot, map_add, map_smul, map_smul, smul_eq_mul, smul_eq_mul] at c1
    have c1' : w1 * ψ ce + w0 * ψ claim = w1 * polyEval x r + w0 * (polyEval x 0 + polyEval x 1) := by
      rw [add_comm, c1, add_comm]
    rw [add_comm] at c2
    by_cases c3 : ψ ce = polyEval x r
    case neg =>
      left
      refine ⟨t1, "combine_two_claims_to_one", _, _, p2, pre2', ?_⟩
      rw [← hw1]
      exact Finset.mem_union_left _ (by simpa [hx] using lin_one c3 c1')
    by_cases c4 : ce ∈ S
    case neg =>
      left
      refine ⟨t1, "combine_two_claims_to_one", _, _, p2, pre2', ?_⟩
      rw [← hw1]
      exact Finset.mem_union_right _ (by simpa using span_one c4 c2)
    by_cases c5 : ψ claim = polyEval x 0 + polyEval x 1
    case neg =>
      left
      refine ⟨t0, "combine_two_claims_to_one", _, _, p1, ?_, ?_⟩
      · rw [← ht1]; exact (List.prefix_append _ _).trans pre2'
      · rw [← hw0]
        have : w0 * (ψ claim - (polyEval x 0 + polyEval x 1)) = 0 := by
          rw [c3] at c1'; linear_combination c1'
        rcases mul_eq_zero.1 this with h0 | h0
        · simp [badSc, h0]
        · exact absurd (sub_eq_zero.1 h0) c5
    have pre0 : tr ++ [.pt "comm_poly" cp] ++ [.chal "challenge_nextround"] <+: tr2 := by
      refine List.IsPrefix.trans ?_ (pre01.trans ((List.prefix_append _ _).trans pre2'))
      exact ⟨[.pt "comm_claim_per_round" claim, .pt "comm_eval" ce], by rw [ht0]; simp⟩
    by_cases c7 : r ∈ extra
    · left
      refine ⟨_, "challenge_nextround", _, _, p0, pre0, ?_⟩
      rw [hr]
      exact Finset.mem_union_right _ c7
    by_cases c6 : polyEval x r = total f (ts.map (folded · r))
    · left
      refine ⟨_, "challenge_nextround", _, _, p0, pre0, ?_⟩
      rw [hr]
      have := badRound_mem hf he ht (p := x) (by omega) (by rw [← c5]; exact hne) c6
      exact Finset.mem_union_left _ (by simpa [hx] using this)
    · rcases r6 (by rw [c3]; exact c6) with hb | ⟨hb, hb', hb''⟩
      · left
        exact hb.lift p4 (fun ps vs => by simp [badSc]) List.prefix_rfl
      · right
        refine ⟨?_, fun _ => ?_, by simpa using ⟨c7, hb''⟩⟩
        · have : (ts.map (folded · r)).map (fun t => mle t rs') = ts.map fun t => mle t (r :: rs') := by
            rw [List.map_map]
            apply List.map_congr_left
            intro t ht'
            exact mle_folded t r rs' (by rw [r5]; exact ht.2 t ht')
          rw [this] at hb
          exact hb
        · cases k with
          | zero =>
            unfold scRounds at hrec
            obtain ⟨h1, _⟩ := pure_inv hrec
            obtain ⟨_, rfl⟩ : [] = rs' ∧ ce = fin := by simpa using h1
            exact c4
          | succ k => exact hb' (by omega)

/-! ### Independent generators -/

/-- No combination of the points is zero except the trivial one. -/
def Independent (F : Type) [Field F] [Module F G] (l : List G) : Prop :=
  ∀ s : List F, s.length = l.length → msm l s = 0 → ∀ x ∈ s, x = 0

theorem msm_ofFn (l : List G) (g : Fin l.length → F) : msm l (List.ofFn g) = ∑ i, g i • l.get i := by
  induction l with
  | nil => simp
  | cons a l ih =>
    rw [List.ofFn_succ, msm_cons, ih]
    exact (Fin.sum_univ_succ (fun i : Fin (l.length + 1) => g i • (a :: l).get i)).symm

theorem Independent.reads {gens : List G} {h : G} (hi : Independent F (h :: gens)) :
    ∃ φ : Nat → G →ₗ[F] F, Reads gens h φ := by
  have hl : LinearIndependent F (fun i : Fin (h :: gens).length => (h :: gens).get i) := by
    rw [Fintype.linearIndependent_iff]
    intro g hg i
    exact hi (List.ofFn g) (by simp) (by rw [msm_ofFn]; exact hg) _ (List.mem_ofFn.2 ⟨i, rfl⟩)
  have hex : ∀ j : Nat, ∃ f : G →ₗ[F] F, f h = 0 ∧ ∀ k < gens.length, f (gens.getD k 0) = if j = k then 1 else 0 := by
    intro j
    by_cases hj : j < gens.length
    · have hn : gens.getD j 0 ∉ Submodule.span F ((h :: gens).get '' {i | i ≠ ⟨j + 1, by simp; omega⟩}) := by
        have := hl.notMem_span_image (s := {i | i ≠ ⟨j + 1, by simp; omega⟩}) (x := ⟨j + 1, by simp; omega⟩) (by simp)
        rw [List.getD_eq_getElem _ _ hj]
        exact this
      obtain ⟨f, hf0, hf1⟩ := LinearMap.exists_extend_of_notMem (0 : _ →ₗ[F] F) hn 1
      have hz : ∀ i : Fin (h :: gens).length, i ≠ ⟨j + 1, by simp; omega⟩ → f ((h :: gens).get i) = 0 := by
        intro i hne
        exact LinearMap.congr_fun hf0 ⟨_, Submodule.subset_span ⟨i, hne, rfl⟩⟩
      refine ⟨f, hz ⟨0, by simp⟩ (by simp), fun k hk => ?_⟩
      split_ifs with hjk
      · subst hjk; exact hf1
      · have := hz ⟨k + 1, by simp; omega⟩ (by simp; omega)
        rw [List.getD_eq_getElem _ _ hk]
        exact this
    · exact ⟨0, by simp, fun k hk => by simp; omega⟩
  choose φ h0 h1 using hex
  exact ⟨φ, ⟨fun j k hk => h1 j k hk, h0⟩⟩

/-! ### The other steps -/

theorem knowledge_at {ch : Oracle F G} {params : MultiParams G} {proof : KnowProof F G} {commit : G}
    {tr tr' : Transcript F G} (h : knowledgeVerify ch params proof commit tr = .ok (true, tr')) :
    ∃ c, At ch tr tr' [commit, proof.t] [c] := by
  unfold knowledgeVerify at h
  obtain ⟨_, _, h1, h⟩ := bind_inv h
  obtain rfl := say_inv h1
  obtain ⟨_, _, h1, h⟩ := bind_inv h
  obtain rfl := say_inv h1
  obtain ⟨c, _, h1, h⟩ := bind_inv h
  obtain ⟨rfl, rfl⟩ := challenge_inv h1
  obtain ⟨_, rfl⟩ := pure_inv h
  exact ⟨_, (((At.refl ch tr).pt _ _).pt _ _).chal _⟩

/-- The bad challenge of a product proof. -/
noncomputable def badProduct (ψ : G →ₗ[F] F) (ps : List G) (_ : List F) : Finset F :=
  fewRoots 1 fun c => c * ψ (ps.getD 2 0) + ψ (ps.getD 5 0) =
    c * (ψ (ps.getD 1 0) * ψ (ps.getD 0 0)) + ψ (ps.getD 4 0) * ψ (ps.getD 0 0)

theorem product_sound {ch : Oracle F G} {params : MultiParams G} {proof : ProdProof F G} {va vb prod : G}
    (ψ : G →ₗ[F] F) (hψ : ∀ x s : F, ψ (commitVec params.generators [x] params.h s) = x) (hh : ψ params.h = 0)
    {tr tr' : Transcript F G} (h : productVerify ch params proof va vb prod tr = .ok (true, tr')) :
    ∃ c, At ch tr tr' [va, vb, prod, proof.alpha, proof.beta, proof.delta] [c] ∧
      (HitFrom ch (badProduct ψ) tr tr' ∨ ψ prod = ψ vb * ψ va) := by
  unfold productVerify at h
  obtain ⟨z1, _, h1, h⟩ := bind_inv h
  obtain ⟨_, rfl⟩ := orPanic_inv h1
  obtain ⟨z2, _, h1, h⟩ := bind_inv h
  obtain ⟨_, rfl⟩ := orPanic_inv h1
  obtain ⟨z3, _, h1, h⟩ := bind_inv h
  obtain ⟨_, rfl⟩ := orPanic_inv h1
  obtain ⟨z4, _, h1, h⟩ := bind_inv h
  obtain ⟨_, rfl⟩ := orPanic_inv h1
  obtain ⟨z5, _, h1, h⟩ := bind_inv h
  obtain ⟨_, rfl⟩ := orPanic_inv h1
  obtain ⟨_, _, h1, h⟩ := bind_inv h
  obtain rfl := say_inv h1
  obtain ⟨_, _, h1, h⟩ := bind_inv h
  obtain rfl := say_inv h1
  obtain ⟨_, _, h1, h⟩ := bind_inv h
  obtain rfl := say_inv h1
  obtain ⟨_, _, h1, h⟩ := bind_inv h
  obtain rfl := say_inv h1
  obtain ⟨_, _, h1, h⟩ := bind_inv h
  obtain rfl := say_inv h1
  obtain ⟨_, _, h1, h⟩ := bind_inv h
  obtain rfl := say_inv h1
  obtain ⟨c, _, h1, h⟩ := bind_inv h
  obtain ⟨hc, rfl⟩ := challenge_inv h1
  obtain ⟨hb, rfl⟩ := pure_inv h
  simp only [Bool.and_eq_true, decide_eq_true_eq] at hb
  obtain ⟨⟨_, q2⟩, q3⟩ := hb
  have p0 := ((((((At.refl ch tr).pt "X" va).pt "Y" vb).pt "Z" prod).pt "alpha" proof.alpha).pt "beta" proof.beta).pt
    "delta" proof.delta
  refine ⟨c, hc ▸ p0.chal "c", ?_⟩
  have e2 := congrArg ψ q2
  rw [hψ, map_add, map_smul, smul_eq_mul] at e2
  have e3 := congrArg ψ q3
  simp only [commitVec, msm_cons, msm_nil_left, map_add, map_smul, smul_eq_mul, hh, mul_zero, add_zero] at e3
  by_cases hp : ψ prod = ψ vb * ψ va
  · exact Or.inr hp
  · left
    refine ⟨_, "c", _, _, p0, List.prefix_rfl, ?_⟩
    rw [hc]
    have : c * ψ prod + ψ proof.delta = c * (ψ vb * ψ va) + ψ proof.beta * ψ va := by
      rw [← e2] at e3; linear_combination e3
    simpa [badProduct] using lin_one hp this

/-- The bad challenge of an equality proof. -/
noncomputable def badEq (ψ : G →ₗ[F] F) (ps : List G) (_ : List F) : Finset F :=
  fewRoots 1 fun c => c * ψ (ps.getD 0 0) + ψ (ps.getD 2 0) = c * ψ (ps.getD 1 0) + 0

theorem eq_sound {ch : Oracle F G} {params : MultiParams G} {proof : EqProof F G} {c1 c2 : G}
    (ψ : G →ₗ[F] F) (hh : ψ params.h = 0)
    {tr tr' : Transcript F G} (h : eqVerify ch params c1 c2 proof tr = .ok (true, tr')) :
    ∃ c, At ch tr tr' [c1, c2, proof.alpha] [c] ∧ (HitFrom ch (badEq ψ) tr tr' ∨ ψ c1 = ψ c2) := by
  unfold eqVerify at h
  obtain ⟨_, _, h1, h⟩ := bind_inv h
  obtain rfl := say_inv h1
  obtain ⟨_, _, h1, h⟩ := bind_inv h
  obtain rfl := say_inv h1
  obtain ⟨_, _, h1, h⟩ := bind_inv h
  obtain rfl := say_inv h1
  obtain ⟨c, _, h1, h⟩ := bind_inv h
  obtain ⟨hc, rfl⟩ := challenge_inv h1
  obtain ⟨hb, rfl⟩ := pure_inv h
  simp only [decide_eq_true_eq] at hb
  have p0 := (((At.refl ch tr).pt "C1" c1).pt "C2" c2).pt "alpha" proof.alpha
  refine ⟨c, hc ▸ p0.chal "c", ?_⟩
  have e := congrArg ψ hb
  rw [map_smul, hh, smul_zero, map_add, map_smul, map_sub, smul_eq_mul] at e
  by_cases hp : ψ c1 = ψ c2
  · exact Or.inr hp
  · left
    refine ⟨_, "c", _, _, p0, List.prefix_rfl, ?_⟩
    rw [hc]
    have : c * ψ c1 + ψ proof.alpha = c * ψ c2 + 0 := by linear_combination -e
    simpa [badEq] using lin_one hp this

/-! ### The inner-product argument -/

/-- The halves of a vector combined by a challenge (inner_product.rs:85-90). -/
def foldX (b : List F) (x : F) : List F :=
  List.zipWith (fun l r => l * x⁻¹ + r * x) (b.take (b.length / 2)) (b.drop (b.length / 2))

/-- The bad challenges of the reduction with `k` rounds, and of the proof at its end. -/
noncomputable def badX (l : G →ₗ[F] F) : Nat → G → List F → List G → List F → Finset F
  | 0, P, b, ps, _ => fewRoots 1 fun c => c * (b.getD 0 0 * l P) + (b.getD 0 0 * l (ps.getD 1 0) + l (ps.getD 0 0)) = c * 0 + 0
  | _ + 1, P, b, ps, [] =>
    (fewRoots 4 fun x => x ≠ 0 ∧ l (P + (x * x) • ps.getD 0 0 + (x⁻¹ * x⁻¹) • ps.getD 1 0) = 0) ∪
    fewRoots 2 fun x => x ≠ 0 ∧ ∀ j, (foldX b x).getD j 0 = 0
  | k + 1, P, b, ps, x :: vs =>
    badX l k (P + (x * x) • ps.getD 0 0 + (x⁻¹ * x⁻¹) • ps.getD 1 0) (foldX b x) (ps.drop 2) vs

theorem badX_card (l : G →ₗ[F] F) (k : Nat) (P : G) (b : List F) (ps : List G) (vs : List F) :
    (badX l k P b ps vs).card ≤ 6 := by
  fun_induction badX l k P b ps vs with
  | case1 => exact (fewRoots_card _ _).trans (by omega)
  | case2 => exact (Finset.card_union_le _ _).trans (Nat.add_le_add (fewRoots_card _ _) (fewRoots_card _ _))
  | case3 _ _ _ _ _ _ ih => exact ih

theorem foldX_length (b : List F) (n : Nat) (h : b.length = 2 ^ (n + 1)) (x : F) : (foldX b x).length = 2 ^ n := by
  rw [pow_succ] at h
  simp [foldX]; omega

theorem foldX_getD (b : List F) (n : Nat) (h : b.length = 2 ^ (n + 1)) (x : F) (j : Nat) (hj : j < 2 ^ n) :
    (foldX b x).getD j 0 = b.getD j 0 * x⁻¹ + b.getD (2 ^ n + j) 0 * x := by
  have hl := foldX_length b n h x
  rw [pow_succ] at h
  rw [List.getD_eq_getElem _ _ (by omega), List.getD_eq_getElem _ _ (by omega), List.getD_eq_getElem _ _ (by omega)]
  have : b.length / 2 = 2 ^ n := by omega
  simp [foldX, this]

theorem bulletChallenges_at (ch : Oracle F G) (k : Nat) (L R : List G) (hL : L.length = k) (hR : R.length = k)
    (xs : List F) (tr tr' : Transcript F G) (h : bulletChallenges ch L R tr = .ok (xs, tr')) :
    ∃ a, At ch tr tr' a xs ∧ a.length = 2 * k ∧ xs.length = k ∧ (∀ x ∈ xs, x ≠ 0) := by
  induction k generalizing L R xs tr with
  | zero =>
    obtain rfl := List.length_eq_zero_iff.1 hL
    obtain rfl := List.length_eq_zero_iff.1 hR
    unfold bulletChallenges at h
    obtain ⟨rfl, rfl⟩ := pure_inv h
    exact ⟨[], At.refl _ _, rfl, rfl, by simp⟩
  | succ k ih =>
    match L, R, hL, hR with
    | A :: L, B :: R, hL, hR =>
    unfold bulletChallenges at h
    obtain ⟨_, _, h1, h⟩ := bind_inv h
    obtain rfl := say_inv h1
    obtain ⟨_, _, h1, h⟩ := bind_inv h
    obtain rfl := say_inv h1
    obtain ⟨x, _, h1, h⟩ := bind_inv h
    obtain ⟨hx, rfl⟩ := challenge_inv h1
    obtain ⟨_, _, h1, h⟩ := bind_inv h
    obtain ⟨hx0, rfl⟩ := ensure_inv h1
    simp only [ne_eq, decide_not, Bool.not_eq_true', decide_eq_false_iff_not] at hx0
    obtain ⟨xs', tr1, h2, h⟩ := bind_inv h
    obtain ⟨rfl, rfl⟩ := pure_inv h
    have p1 := (((At.refl ch tr).pt "L" A).pt "R" B).chal "x"
    rw [hx] at p1
    obtain ⟨a, i1, i2, i3, i4⟩ := ih L R (by simpa using hL) (by simpa using hR) xs' _ h2
    exact ⟨_, p1.trans i1, by simp [i2]; omega, by simp [i3], by simpa using ⟨hx0, i4⟩⟩

/-- The reduction: a false statement stays false and the folded vector nonzero, or some challenge was bad. -/
theorem bulletChallenges_sound (ch : Oracle F G) (l : G →ₗ[F] F) (k : Nat) (L R : List G) (hL : L.length = k)
    (hR : R.length = k) (P : G) (b : List F) (hb : b.length = 2 ^ k) (hb0 : ∃ j, b.getD j 0 ≠ 0) (hP : l P ≠ 0)
    (xs : List F) (tr tr' : Transcript F G) (h : bulletChallenges ch L R tr = .ok (xs, tr')) :
    ∃ a, At ch tr tr' a xs ∧ a.length = 2 * k ∧ xs.length = k ∧ (∀ x ∈ xs, x ≠ 0) ∧
      (HitFrom ch (badX l k P b) tr tr' ∨
        (l (P + msm L (xs.map fun x => x * x) + msm R (xs.map fun x => x⁻¹ * x⁻¹)) ≠ 0 ∧ dot b (Bp.sRec xs) ≠ 0 ∧
          ∀ ps vs, badX l k P b (a ++ ps) (xs ++ vs) =
            badX l 0 (P + msm L (xs.map fun x => x * x) + msm R (xs.map fun x => x⁻¹ * x⁻¹)) [dot b (Bp.sRec xs)] ps vs)) := by
  induction k generalizing L R P b xs tr with
  | zero =>
    obtain rfl := List.length_eq_zero_iff.1 hL
    obtain rfl := List.length_eq_zero_iff.1 hR
    unfold bulletChallenges at h
    obtain ⟨rfl, rfl⟩ := pure_inv h
    obtain ⟨y, rfl⟩ := List.length_eq_one_iff.1 (show b.length = 1 from hb)
    refine ⟨[], At.refl _ _, rfl, rfl, by simp, Or.inr ⟨by simpa using hP, ?_, ?_⟩⟩
    · obtain ⟨j, hj⟩ := hb0
      cases j with
      | zero => simpa [Bp.sRec] using hj
      | succ j => simp at hj
    · intro ps vs
      simp [Bp.sRec]
  | succ k ih =>
    match L, R, hL, hR with
    | A :: L, B :: R, hL, hR =>
    unfold bulletChallenges at h
    obtain ⟨_, _, h1, h⟩ := bind_inv h
    obtain rfl := say_inv h1
    obtain ⟨_, _, h1, h⟩ := bind_inv h
    obtain rfl := say_inv h1
    obtain ⟨x, _, h1, h⟩ := bind_inv h
    obtain ⟨hx, rfl⟩ := challenge_inv h1
    obtain ⟨_, _, h1, h⟩ := bind_inv h
    obtain ⟨hx0, rfl⟩ := ensure_inv h1
    simp only [ne_eq, decide_not, Bool.not_eq_true', decide_eq_false_iff_not] at hx0
    obtain ⟨xs', tr1, h2, h⟩ := bind_inv h
    obtain ⟨rfl, rfl⟩ := pure_inv h
    have p0 := ((At.refl ch tr).pt "L" A).pt "R" B
    have p1 := p0.chal "x"
    rw [hx] at p1
    obtain ⟨P', hP'⟩ : ∃ P', P' = P + (x * x) • A + (x⁻¹ * x⁻¹) • B := ⟨_, rfl⟩
    have hfl := foldX_length b k hb x
    have hpos : ∀ t2, tr ++ [.pt "L" A] ++ [.pt "R" B] ++ [.chal "x"] <+: t2 → l P' = 0 →
        HitFrom ch (badX l (k + 1) P b) tr t2 := by
      intro t2 hpre h0
      refine ⟨_, "x", _, _, p0, hpre, ?_⟩
      rw [hx]
      apply Finset.mem_union_left
      refine fewRoots_mem (C (l A) * X ^ 4 + C (l P) * X ^ 2 + C (l B)) ?_ ?_ ?_ ⟨hx0, ?_⟩
      · intro hq
        have := congrArg (fun q => coeff q 2) hq
        simp [coeff_X_pow, coeff_C] at this
        exact hP this
      · compute_degree
      · rintro y ⟨hy0, hy⟩
        simp only [List.nil_append, List.cons_append, List.getD_cons_zero, List.getD_cons_succ, map_add, map_smul,
          smul_eq_mul] at hy
        simp only [eval_add, eval_mul, eval_C, eval_pow, eval_X]
        have : y * y * (l P + y * y * l A + y⁻¹ * y⁻¹ * l B) = 0 := by rw [hy, mul_zero]
        field_simp at this
        linear_combination this
      · simpa [← hP'] using h0
    have hbad : ∀ t2, tr ++ [.pt "L" A] ++ [.pt "R" B] ++ [.chal "x"] <+: t2 → (∀ j, (foldX b x).getD j 0 = 0) →
        HitFrom ch (badX l (k + 1) P b) tr t2 := by
      intro t2 hpre h0
      refine ⟨_, "x", _, _, p0, hpre, ?_⟩
      rw [hx]
      apply Finset.mem_union_right
      obtain ⟨j, hj⟩ := hb0
      have hjl : j < 2 ^ (k + 1) := by
        by_contra hc
        exact hj (List.getD_eq_default _ _ (by omega))
      rw [pow_succ] at hjl
      obtain ⟨i, hi, hi'⟩ : ∃ i, i < 2 ^ k ∧ (b.getD i 0 ≠ 0 ∨ b.getD (2 ^ k + i) 0 ≠ 0) := by
        by_cases hlt : j < 2 ^ k
        · exact ⟨j, hlt, Or.inl hj⟩
        · exact ⟨j - 2 ^ k, by omega, Or.inr (by rw [Nat.add_sub_cancel' (by omega)]; exact hj)⟩
      refine fewRoots_mem (C (b.getD (2 ^ k + i) 0) * X ^ 2 + C (b.getD i 0)) ?_ ?_ ?_ ⟨hx0, h0⟩
      · intro hq
        have e0 := congrArg (fun q => coeff q 0) hq
        have e2 := congrArg (fun q => coeff q 2) hq
        simp only [coeff_add, coeff_C_mul, coeff_X_pow, coeff_C, coeff_zero] at e0 e2
        norm_num at e0 e2
        rcases hi' with hi' | hi'
        · exact hi' (by simpa using e0)
        · exact hi' (by simpa using e2)
      · compute_degree
      · rintro y ⟨hy0, hy⟩
        have := hy i
        rw [foldX_getD b k hb y i hi] at this
        simp only [eval_add, eval_mul, eval_C, eval_pow, eval_X]
        have : y * (b.getD i 0 * y⁻¹ + b.getD (2 ^ k + i) 0 * y) = 0 := by rw [this, mul_zero]
        field_simp at this
        linear_combination this
    obtain ⟨a0, s1, s2, s3, s4⟩ := bulletChallenges_at ch k L R (by simpa using hL) (by simpa using hR) xs' _ _ h2
    have hdot : dot b (Bp.sRec (x :: xs')) = dot (foldX b x) (Bp.sRec xs') := by
      rw [Cp.dot_sRec _ _ _ (by rw [hb, s3, pow_succ]; omega)]
      unfold foldX
      have : b.length / 2 = 2 ^ xs'.length := by rw [hb, s3, pow_succ]; omega
      rw [this]
    have hsum : ∀ xs', P + msm (A :: L) ((x :: xs').map fun x => x * x) + msm (B :: R) ((x :: xs').map fun x => x⁻¹ * x⁻¹) =
        P' + msm L (xs'.map fun x => x * x) + msm R (xs'.map fun x => x⁻¹ * x⁻¹) := by
      intro xs'
      rw [hP']; simp only [List.map_cons, msm_cons]; abel
    by_cases hz : l P' = 0
    · exact ⟨_, p1.trans s1, by simp [s2]; omega, by simp [s3], by simpa using ⟨hx0, s4⟩, Or.inl (hpos _ s1.pre hz)⟩
    by_cases hz2 : ∀ j, (foldX b x).getD j 0 = 0
    · exact ⟨_, p1.trans s1, by simp [s2]; omega, by simp [s3], by simpa using ⟨hx0, s4⟩, Or.inl (hbad _ s1.pre hz2)⟩
    push Not at hz2
    obtain ⟨a, i1, i2, i3, i4, i5⟩ := ih L R (by simpa using hL) (by simpa using hR) P' (foldX b x) hfl hz2 hz xs' _ h2
    refine ⟨_, p1.trans i1, by simp [i2]; omega, by simp [i3], by simpa using ⟨hx0, i4⟩, ?_⟩
    rcases i5 with i5 | ⟨i5, i6, i7⟩
    · left
      exact i5.lift p1 (fun ps vs => by simp [badX, hP']) List.prefix_rfl
    · right
      rw [hsum, hdot]
      refine ⟨i5, i6, fun ps vs => ?_⟩
      rw [← i7 ps vs]
      simp [badX, hP']

/-- The functional that vanishes on every commitment for which the claim about the inner product with the weights of
`y` is true: the value of the first generator minus the weighted values of the others. -/
noncomputable def balance (φ : Nat → G →ₗ[F] F) (y : List F) : G →ₗ[F] F :=
  φ 0 - ∑ j ∈ Finset.range (2 ^ y.length), eqWeight y j • φ (j + 1)

theorem balance_apply (φ : Nat → G →ₗ[F] F) (y : List F) (P : G) :
    balance φ y P = φ 0 P - ∑ j ∈ Finset.range (2 ^ y.length), eqWeight y j * φ (j + 1) P := by
  simp [balance, LinearMap.sum_apply]

theorem balance_u {u : G} {gs : List G} {h : G} {φ : Nat → G →ₗ[F] F} (hφ : Reads (u :: gs) h φ) (y : List F) :
    balance φ y u = 1 := by
  have e : ∀ j, φ j u = if j = 0 then 1 else 0 := fun j => hφ.gen j 0 (by simp)
  rw [balance_apply, e, if_pos rfl, Finset.sum_eq_zero, sub_zero]
  intro j _
  rw [e, if_neg (by omega), mul_zero]

theorem balance_h {u : G} {gs : List G} {h : G} {φ : Nat → G →ₗ[F] F} (hφ : Reads (u :: gs) h φ) (y : List F) :
    balance φ y h = 0 := by
  rw [balance_apply, hφ.blind, Finset.sum_eq_zero, sub_zero]
  intro j _
  rw [hφ.blind, mul_zero]

theorem balance_g {u : G} {gs : List G} {h : G} {φ : Nat → G →ₗ[F] F} (hφ : Reads (u :: gs) h φ) (y : List F)
    (k : Nat) (hk : k < gs.length) (hy : k < 2 ^ y.length) : balance φ y (gs.getD k 0) = -eqWeight y k := by
  have e : ∀ j, φ j (gs.getD k 0) = if j = k + 1 then 1 else 0 := fun j => by
    have := hφ.gen j (k + 1) (by simpa using hk)
    simpa using this
  rw [balance_apply, e, if_neg (by omega), Finset.sum_eq_single k]
  · rw [e, if_pos rfl]; ring
  · intro j _ hj
    rw [e, if_neg (by omega), mul_zero]
  · intro hn; exact absurd (Finset.mem_range.2 hy) hn

/-- The bad challenges of the proof that a committed vector has a committed inner product with the weights of `y`. -/
noncomputable def badInner (φ : Nat → G →ₗ[F] F) (k : Nat) (y : List F) (ps : List G) (vs : List F) : Finset F :=
  badX (balance φ y) k (ps.getD 0 0 + ps.getD 1 0) ((evalEq y).take (2 ^ k)) (ps.drop 2) vs

theorem eqWeight_zero_ne (y : List F) (h : ∀ x ∈ y, x ≠ 1) : eqWeight y 0 ≠ 0 := by
  unfold eqWeight
  rw [Finset.prod_ne_zero_iff]
  intro j hj
  rw [Finset.mem_range] at hj
  simp only [Nat.zero_testBit, Bool.false_eq_true, if_false]
  rw [List.getD_eq_getElem _ _ hj]
  exact fun h0 => h _ (List.getElem_mem hj) (sub_eq_zero.1 h0).symm

set_option maxHeartbeats 1600000 in
theorem inner_sound (ch : Oracle F G) (params : PcParams G) (ry : List F) (commits : List G) (commitRy : G)
    (proof : DotProof F G) (k : Nat) (hk : proof.L.length = k) (u : G) (hu : params.gen1.generators = [u])
    (φ : Nat → G →ₗ[F] F) (hφ : Reads (u :: params.genN.generators) params.gen1.h φ)
    (tr tr' : Transcript F G) (h : innerProductVerify ch params ry commits commitRy proof tr = .ok (true, tr')) :
    ∃ a b, At ch tr tr' a b ∧ a.length = 2 * k + 4 ∧ b.length = k + 1 ∧
      ((∀ y ∈ ry, y ≠ 1) → HitFrom ch (badInner φ k (ry.drop (ry.length / 2))) tr tr' ∨
        balance φ (ry.drop (ry.length / 2))
          (commitVec commits (evalEq (ry.take (ry.length / 2))) params.gen1.h (0 : F) + commitRy) = 0) := by
  obtain ⟨y2, hy2⟩ : ∃ y2, y2 = ry.drop (ry.length / 2) := ⟨_, rfl⟩
  rw [← hy2]
  unfold innerProductVerify at h
  simp only [← hy2] at h
  obtain ⟨lz, hlz⟩ : ∃ lz, lz = commitVec commits (evalEq (ry.take (ry.length / 2))) params.gen1.h (0 : F) := ⟨_, rfl⟩
  rw [← hlz] at h ⊢
  obtain ⟨_, _, h1, h⟩ := bind_inv h
  obtain rfl := say_inv h1
  obtain ⟨_, _, h1, h⟩ := bind_inv h
  obtain rfl := say_inv h1
  obtain ⟨_, _, h1, h⟩ := bind_inv h
  obtain rfl := say_inv h1
  obtain ⟨⟨bS, gHat, gammaHat⟩, tr1, hbv, h⟩ := bind_inv h
  obtain ⟨_, _, h1, h⟩ := bind_inv h
  obtain rfl := say_inv h1
  obtain ⟨_, _, h1, h⟩ := bind_inv h
  obtain rfl := say_inv h1
  obtain ⟨c, _, h1, h⟩ := bind_inv h
  obtain ⟨hc, rfl⟩ := challenge_inv h1
  obtain ⟨g, _, h1, h⟩ := bind_inv h
  obtain ⟨hg, rfl⟩ := orPanic_inv h1
  obtain ⟨hfin, rfl⟩ := pure_inv h
  simp only [decide_eq_true_eq] at hfin
  rw [hu] at hg
  obtain rfl : u = g := by simpa using hg
  unfold bulletVerify at hbv
  obtain ⟨_, _, h1, hbv⟩ := bind_inv hbv
  obtain ⟨hLR, rfl⟩ := ensure_inv h1
  obtain ⟨xs, tr2, hxs, hbv⟩ := bind_inv hbv
  obtain ⟨_, _, h1, hbv⟩ := bind_inv hbv
  obtain ⟨hlb, rfl⟩ := ensure_inv h1
  obtain ⟨_, _, h1, hbv⟩ := bind_inv hbv
  obtain ⟨hlg, rfl⟩ := ensure_inv h1
  obtain ⟨hres, rfl⟩ := pure_inv hbv
  simp only [decide_eq_true_eq] at hLR hlb hlg
  simp only [Prod.mk.injEq] at hres
  obtain ⟨hbS, hgH, hgam⟩ := hres
  rw [hk] at hlb hlg
  have p0 := (((At.refl ch tr).frs "protocol-name: polynomial evaluation proof" []).pt "Cx" lz).pt "Cy" commitRy
  obtain ⟨tr0, htr0⟩ : ∃ t, t = tr ++ [Msg.frs "protocol-name: polynomial evaluation proof" []] ++ [Msg.pt "Cx" lz] ++
    [Msg.pt "Cy" commitRy] := ⟨_, rfl⟩
  rw [← htr0] at p0 hxs
  have hb2 : ((evalEq y2).take (2 ^ k)).length = 2 ^ k := by rw [List.length_take]; omega
  obtain ⟨a0, s1, s2, s3, s4⟩ := bulletChallenges_at ch k _ _ hk (by omega) xs _ _ hxs
  have hs : bulletS xs = Bp.sRec xs := Bp.ippS_eq xs s4
  have hsl : (Bp.sRec xs).length = 2 ^ k := by rw [Bp.sRec_length, s3]
  rw [hs, hsl] at hbS hgH
  change dot ((evalEq y2).take (2 ^ k)) (Bp.sRec xs) = bS at hbS
  have mk : ∀ a, At ch tr0 tr2 a xs → a.length = 2 * k →
      At ch tr (tr2 ++ [.pt "delta" proof.delta] ++ [.pt "beta" proof.beta] ++ [.chal "challenge_tau"])
        (lz :: commitRy :: a ++ [proof.delta, proof.beta]) (xs ++ [c]) := by
    intro a ha _
    have := (((p0.trans ha).pt "delta" proof.delta).pt "beta" proof.beta).chal "challenge_tau"
    rw [hc] at this
    simpa using this
  refine ⟨_, _, mk a0 s1 s2, by simp [s2], by simp [s3], fun hy => ?_⟩
  by_cases hP : balance φ y2 (lz + commitRy) = 0
  · exact Or.inr hP
  have hb0 : ∃ j, ((evalEq y2).take (2 ^ k)).getD j 0 ≠ 0 := by
    refine ⟨0, ?_⟩
    rw [getD_take _ _ _ (by positivity), evalEq_getD _ _ (by positivity)]
    exact eqWeight_zero_ne y2 fun x hx => hy x (List.mem_of_mem_drop (hy2 ▸ hx))
  obtain ⟨a, i1, i2, i3, i4, i5⟩ := bulletChallenges_sound ch (balance φ y2) k _ _ hk (by omega) (lz + commitRy)
    ((evalEq y2).take (2 ^ k)) hb2 hb0 hP xs _ _ hxs
  left
  rcases i5 with i5 | ⟨i5, i6, i7⟩
  · refine i5.lift p0 (fun ps vs => ?_) (by simp only [List.append_assoc]; exact List.prefix_append _ _)
    simp [badInner]
  · have hgamma : lz + commitRy + msm proof.L (xs.map fun x => x * x) + msm proof.R (xs.map fun x => x⁻¹ * x⁻¹) = gammaHat := by
      rw [← hgam]; abel
    rw [hgamma] at i5 i7
    rw [hbS] at i6 i7
    have hgz : balance φ y2 (gHat + bS • u) = 0 := by
      rw [map_add, map_smul, balance_u hφ, smul_eq_mul, mul_one, ← hgH, map_msm, ← hbS,
        Bp.dot_eq_sum' _ _ (2 ^ k) (by rw [hb2]), List.length_take, Nat.min_eq_left hlg, ← Finset.sum_add_distrib]
      apply Finset.sum_eq_zero
      intro j hj
      have hj := Finset.mem_range.1 hj
      have hjy : j < 2 ^ y2.length := by rw [← evalEq_length]; omega
      rw [getD_take _ _ _ hj, evalEq_getD _ _ hjy]
      have : ((params.genN.generators).take (2 ^ k)).getD j 0 = params.genN.generators.getD j 0 := by
        simp [List.getD_eq_getElem?_getD, List.getElem?_take, hj]
      rw [this, balance_g hφ y2 j (by omega) hjy]
      ring
    have e := congrArg (balance φ y2) hfin
    simp only [map_add _ (bS • _) proof.delta, map_add _ (proof.z1 • _) _, map_smul, hgz, balance_h hφ, map_add,
      smul_eq_mul, mul_zero, add_zero] at e
    have p1 := ((p0.trans i1).pt "delta" proof.delta).pt "beta" proof.beta
    refine ⟨_, "challenge_tau", _, _, p1, List.prefix_rfl, ?_⟩
    rw [hc]
    have hne : bS * balance φ y2 gammaHat ≠ 0 := mul_ne_zero i6 i5
    have hm := lin_one hne (show c * (bS * balance φ y2 gammaHat) +
      (bS * balance φ y2 proof.beta + balance φ y2 proof.delta) = c * 0 + 0 by linear_combination e)
    have := i7 [proof.delta, proof.beta] []
    simp only [badInner, List.nil_append, List.cons_append, List.append_assoc, List.getD_cons_zero, List.getD_cons_succ,
      List.drop_succ_cons, List.drop_zero]
    rw [List.append_nil] at this
    rw [this]
    simpa [badX] using hm

/-! ### Composition -/

theorem At.of_prefix (ch : Oracle F G) {tr t : Transcript F G} (h : tr <+: t) : ∃ a b, At ch tr t a b := by
  obtain ⟨b, hb⟩ := drawn_prefix ch h
  obtain ⟨w, rfl⟩ := h
  exact ⟨said w, b, ⟨List.prefix_append _ _, said_append _ _, hb.symm⟩⟩

theorem challenges_at {ch : Oracle F G} {l : String} {n : Nat} {rs : List F} {tr tr' : Transcript F G}
    (h : challenges ch l n tr = .ok (rs, tr')) : At ch tr tr' [] rs ∧ rs.length = n := by
  induction n generalizing rs tr with
  | zero =>
    unfold challenges at h
    obtain ⟨rfl, rfl⟩ := pure_inv h
    exact ⟨At.refl _ _, rfl⟩
  | succ n ih =>
    obtain ⟨rs', rfl, h'⟩ := challenges_cons_inv _ _ _ _ _ _ h
    obtain ⟨h1, h2⟩ := ih h'
    exact ⟨((At.refl ch tr).chal l).trans h1, by simp [h2]⟩

theorem HitFrom.of_hit {ch : Oracle F G} {B : List F → Finset F} {tr tr' : Transcript F G}
    (h : Hit ch (fun _ vs => B (vs.drop (drawn ch tr).length)) tr tr') : HitFrom ch (fun _ vs => B vs) tr tr' := by
  obtain ⟨t, l, h1, h2, h3⟩ := h
  obtain ⟨a, b, hat⟩ := At.of_prefix ch h1
  refine ⟨t, l, a, b, hat, h2, ?_⟩
  beta_reduce at h3 ⊢
  rw [hat.chs, List.drop_left] at h3
  exact h3

/-- A hit inside a part of a run is a hit of the whole run. -/
theorem HitFrom.within {ch : Oracle F G} {B B' : List G → List F → Finset F} {tr tr1 tr2 tr3 : Transcript F G}
    {a a2 : List G} {b b2 : List F} (h : HitFrom ch B' tr1 tr2) (hat : At ch tr tr1 a b) (hat2 : At ch tr1 tr2 a2 b2)
    (hB : ∀ ps vs, vs.length < b2.length → B' ps vs ⊆ B (a ++ ps) (b ++ vs)) (hp : tr2 <+: tr3) :
    HitFrom ch B tr tr3 := by
  obtain ⟨t, l, a', b', h1, h2, h3⟩ := h
  refine ⟨t, l, a ++ a', b ++ b', hat.trans h1, h2.trans hp, hB _ _ ?_ h3⟩
  have := (drawn_prefix ch h2).length_le
  rw [drawn_chal, h1.chs, hat2.chs] at this
  simp at this
  omega

/-- The bad challenges of two parts of a run, the first with `n` challenges and `p` points. -/
def after (n p : Nat) (A : List G → List F → Finset F) (C : List G → List F → List G → List F → Finset F)
    (ps : List G) (vs : List F) : Finset F :=
  if vs.length < n then A ps vs else C (ps.take p) (vs.take n) (ps.drop p) (vs.drop n)

theorem after_card {n p d : Nat} {A : List G → List F → Finset F} {C : List G → List F → List G → List F → Finset F}
    (hA : ∀ ps vs, (A ps vs).card ≤ d) (hC : ∀ a b ps vs, (C a b ps vs).card ≤ d) (ps : List G) (vs : List F) :
    (after n p A C ps vs).card ≤ d := by
  unfold after
  split
  · exact hA _ _
  · exact hC _ _ _ _

theorem HitFrom.first {ch : Oracle F G} {n p : Nat} {A : List G → List F → Finset F}
    {C : List G → List F → List G → List F → Finset F} {tr tr1 tr3 : Transcript F G} {a : List G} {b : List F}
    (h : HitFrom ch A tr tr1) (hat : At ch tr tr1 a b) (hb : b.length = n) (hp : tr1 <+: tr3) :
    HitFrom ch (after n p A C) tr tr3 :=
  h.within (At.refl ch tr) hat (fun ps vs hv => by
    unfold after
    rw [List.nil_append, List.nil_append, if_pos (by omega)]) hp

theorem HitFrom.second {ch : Oracle F G} {n p : Nat} {A : List G → List F → Finset F}
    {C : List G → List F → List G → List F → Finset F} {tr tr1 tr3 : Transcript F G} {a : List G} {b : List F}
    (hat : At ch tr tr1 a b) (ha : a.length = p) (hb : b.length = n) (h : HitFrom ch (C a b) tr1 tr3) :
    HitFrom ch (after n p A C) tr tr3 :=
  h.lift hat (fun ps vs => by
    unfold after
    rw [if_neg (by simp; omega), ← ha, ← hb, List.take_left, List.take_left, List.drop_left, List.drop_left])
    List.prefix_rfl

end Zkp.Sc
