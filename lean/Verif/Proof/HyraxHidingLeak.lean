/- What the commitments of Hyrax's layers say about the values, and what the shapes of `C86_partial` give. -/
import Verif.Proof.HyraxHidingRun

namespace Zkp.Hx

open Zkp.Ml Zkp.Spartan Zkp.Sc Zkp.Gkr Zkp.Cp

set_option linter.unusedSectionVars false
set_option linter.unusedSimpArgs false

variable {F : Type} [Field F] {G : Type} [AddCommGroup G] [Module F G] [DecidableEq F] [DecidableEq G]

/-- The committed values of the rounds of the layers do not depend on the random choices. -/
theorem layers_vals (h2 : (2 : F) ≠ 0) (h3 : (3 : F) ≠ 0) {ch : Oracle F G} (ho : Oblivious ch) (params : Params G) {c : Circuit}
    {L : Nat} {s : Nat → Nat} {evals : List (List (List F))} {logN : Nat} (S : Setup c L s evals logN)
    (htap : ∀ i < L, s i = 0 ∨ s (i + 1) ≤ s i) :
    ∀ k d (claim u0 u1 : F) (qa ql qr : List F) (N : Nat), d + (k + 1) = L → qa.length = logN → ql.length = s (k + 1) →
      qr.length = s (k + 1) →
      claim = layerVal s evals (k + 1) qa ql * u0 + layerVal s evals (k + 1) qa qr * u1 →
      ∃ (V : Nat → List F) (N' : Nat), ∀ (rands : Nat → ZkRand F) (comm : G) (rc0 x0 y0 rx0 ry0 : F),
        ∃ (ps : List (ZkProof F G)) (fin : PSt F G),
          Yields (layersProve ch params c (2 ^ logN) evals rands (k + 1) d ⟨claim, comm, rc0, x0, y0, rx0, ry0, u0, u1, qa, ql, qr⟩) N
            (ps, fin) N' ∧
          fin.qa.length = logN ∧ fin.ql.length = s 0 ∧ fin.qr.length = s 0 ∧
          fin.x = layerVal s evals 0 fin.qa fin.ql ∧ fin.y = layerVal s evals 0 fin.qa fin.qr ∧
          ∀ i ≤ k, ∃ p, ps[i]? = some p ∧
            p.evals = evalComms params (rands (d + i)).alphaEval logN (s (k - i)) (s (k - i + 1)) (V i) := by
  intro k
  induction k with
  | zero =>
    intro d claim u0 u1 qa ql qr N hd hqa hql hqr hc
    obtain ⟨l, hl⟩ : ∃ l, c.layers[0 + 1]? = some l := ⟨_, List.getElem?_eq_getElem (by have := S.len; omega)⟩
    obtain ⟨m, pie, vals, x, y, R⟩ := S.layer h2 h3 ho params (i := 0) (by omega) (htap 0 (by omega)) hl claim u0 u1 qa ql qr hqa
      hql hqr hc N
    refine ⟨fun _ => vals, N + 6 * (logN + 2 * s 0) + 10, fun rands comm rc0 x0 y0 rx0 ry0 => ?_⟩
    obtain ⟨prod, P⟩ : ∃ prod, Yields (productProve ch params.gen1 x (rands d).x y (rands d).y (x * y) (rands d).z (rands d).b1
      (rands d).b2 (rands d).b3 (rands d).b4 (rands d).b5) (N + 4 * (logN + 2 * s 0)) (prod, _, _, _)
      (N + 4 * (logN + 2 * s 0) + 7) := ⟨_, product_yields ho _ _ _ _ _ _ _ _ _ _ _ _ _⟩
    have Y := R.run comm rc0 (rands d) prod P
    have Z := layers_last params S (2 ^ logN) d (by omega) l hl ⟨claim, comm, rc0, x0, y0, rx0, ry0, u0, u1, qa, ql, qr⟩
      rands N _ _ _ _ _ _ _ Y
    refine ⟨_, _, Z, zkChals_length _ _ _, zkChals_length _ _ _, zkChals_length _ _ _, ?_, ?_, ?_⟩
    · rw [R.valX]; rfl
    · rw [R.valY]; rfl
    · intro i hi
      obtain rfl : i = 0 := by omega
      refine ⟨_, rfl, ?_⟩
      rw [← hql]; rfl
  | succ k ih =>
    intro d claim u0 u1 qa ql qr N hd hqa hql hqr hc
    obtain ⟨l, hl⟩ : ∃ l, c.layers[k + 1 + 1]? = some l := ⟨_, List.getElem?_eq_getElem (by have := S.len; omega)⟩
    obtain ⟨m, pie, vals, x, y, R⟩ := S.layer h2 h3 ho params (i := k + 1) (by omega) (htap (k + 1) (by omega)) hl claim u0 u1 qa ql qr
      hqa hql hqr hc N
    obtain ⟨N1, hN1⟩ : ∃ N1, N1 = N + 6 * (logN + 2 * s (k + 1)) + 10 := ⟨_, rfl⟩
    have hx := R.valX
    have hy := R.valY
    obtain ⟨V, N', H⟩ := ih (d + 1) (x * chalAt ch (N1 + 1) + y * chalAt ch (N1 + 2)) (chalAt ch (N1 + 1)) (chalAt ch (N1 + 2))
      _ _ _ (N1 + 3) (by omega) (zkChals_length ch N logN) (zkChals_length ch (N + 4 * logN) (s (k + 1)))
      (zkChals_length ch (N + 4 * logN + 4 * s (k + 1)) (s (k + 1))) (by rw [hx, hy]; rfl)
    refine ⟨fun i => if i = 0 then vals else V (i - 1), N', fun rands comm rc0 x0 y0 rx0 ry0 => ?_⟩
    obtain ⟨prod, P⟩ : ∃ prod, Yields (productProve ch params.gen1 x (rands d).x y (rands d).y (x * y) (rands d).z (rands d).b1
      (rands d).b2 (rands d).b3 (rands d).b4 (rands d).b5) (N + 4 * (logN + 2 * s (k + 1))) (prod, _, _, _)
      (N + 4 * (logN + 2 * s (k + 1)) + 7) := ⟨_, product_yields ho _ _ _ _ _ _ _ _ _ _ _ _ _⟩
    have Y := R.run comm rc0 (rands d) prod P
    rw [← hN1] at Y
    obtain ⟨ps, fin, Z, b⟩ := H rands _ _ x y (rands d).x (rands d).y
    have A := layers_step ho params S (2 ^ logN) k d hd l hl ⟨claim, comm, rc0, x0, y0, rx0, ry0, u0, u1, qa, ql, qr⟩ fin
      rands N N1 N' _ _ _ _ x y ps Y Z
    obtain ⟨b1, b2, b3, b4, b5, b6⟩ := b
    refine ⟨_, fin, A, b1, b2, b3, b4, b5, fun i hi => ?_⟩
    cases i with
    | zero =>
      refine ⟨_, rfl, ?_⟩
      beta_reduce
      rw [if_pos rfl]
      simp only [Nat.sub_zero, Nat.add_zero]
      rw [← hql]; rfl
    | succ i =>
      obtain ⟨p, hp, he⟩ := b6 i (by omega)
      refine ⟨p, by simpa using hp, ?_⟩
      beta_reduce
      rw [if_neg (by omega)]
      simp only [Nat.add_sub_cancel, Nat.add_sub_add_right]
      rw [he, show d + 1 + i = d + (i + 1) by omega]

/-- Two commitments with the same blinding factor. -/
theorem evalComms_leak (params : Params G) (g : G) (hg : params.gen1.generators = [g]) (al : Nat → F) (logN logG lg j : Nat)
    (h1 : lg ≤ j) (h2 : j < logG) (vals : List F) :
    ∃ a b, (evalComms params al logN logG lg vals)[logN + j]? = some a ∧
      (evalComms params al logN logG lg vals)[logN + logG + (j - lg)]? = some b ∧
      a - b = (vals.getD (logN + j) 0 - vals.getD (logN + logG + (j - lg)) 0) • g := by
  unfold evalComms
  refine ⟨_, _, by rw [List.getElem?_map, List.getElem?_range (by omega)]; rfl,
    by rw [List.getElem?_map, List.getElem?_range (by omega)]; rfl, ?_⟩
  have e1 : evalPos logN logG lg (logN + j) = logN + j := by unfold evalPos; rw [if_pos (by omega)]
  have e2 : evalPos logN logG lg (logN + logG + (j - lg)) = logN + j := by unfold evalPos; rw [if_neg (by omega)]; omega
  beta_reduce
  rw [e1, e2, hg, gen_commit, gen_commit, List.headD_cons]
  module

set_option maxHeartbeats 1000000 in
/-- If a layer is smaller than the one below, its proof gives away a value that depends on the witness only. -/
theorem run_leak (h2 : (2 : F) ≠ 0) (h3 : (3 : F) ≠ 0) {ch : Oracle F G} (ho : Oblivious ch) (hne : ∀ t, ch (t ++ [.chal "x"]) ≠ 0)
    (params : Params G) {c : Circuit} {L k : Nat} {s : Nat → Nat} {logN : Nat} (gd : Good F params (logN + k)) (g : G)
    (hg : params.gen1.generators = [g])
    {f : List F × List F → List (List F)} {ps : List (List F × List F)} (R : Ready c L k s logN f ps)
    (circuitHash paramHash : F) (i j : Nat) (hi : i ≤ L) (hj : s (L - i + 1) ≤ j) (hj' : j < s (L - i)) (N : Nat) :
    ∃ δ : F, ∀ rand : HyraxRand F, rand.witness.length = 2 ^ ((logN + k) / 2) →
      rand.in0.bullet.length = logN + k - (logN + k) / 2 → rand.in1.bullet.length = logN + k - (logN + k) / 2 →
      ∃ (proof : HyraxProof F G) (N' : Nat) (p : ZkProof F G) (a b : G),
        Yields (prove ch params (ps.map Prod.snd) (ps.map Prod.fst) c circuitHash paramHash (2 ^ logN) rand) N (proof, outs f ps) N' ∧
        proof.proofs[i]? = some p ∧ p.evals[logN + j]? = some a ∧
        p.evals[logN + s (L - i) + (j - s (L - i + 1))]? = some b ∧ a - b = δ • g := by
  obtain ⟨p1, p2, p3, p4, p5, s1, s3, s4⟩ := gd
  have hcl := R.claim ch N
  obtain ⟨V, N2, H⟩ := layers_vals h2 h3 ho params R.setup R.taper L 0 _ 1 0 (startQa ch N logN (s (L + 1)))
    (startQ ch N logN (s (L + 1))) (startQ ch N logN (s (L + 1))) (startN N logN + s (L + 1) + logN + 1) (by omega)
    (startQa_length _ _ _ _) (startQ_length _ _ _ _) (startQ_length _ _ _ _) hcl
  refine ⟨(V i).getD (logN + j) 0 - (V i).getD (logN + s (L - i) + (j - s (L - i + 1))) 0, fun rand dw di0 di1 => ?_⟩
  obtain ⟨prf, fin, Z, a4, a5, a6, a7, a8, a9⟩ := H rand.layers
    (commitVec params.gen1.generators [startClaim ch N logN (s (L + 1)) (outs f ps)] params.gen1.h (0 : F)) 0 0 0 0 0
  rw [R.s0] at a5 a6
  have hx := R.val fin.qa fin.ql a5
  have hy := R.val fin.qa fin.qr a6
  rw [← a7] at hx
  rw [← a8] at hy
  obtain ⟨-, o0, -, X0, -⟩ := input_same ho hne params p1 (by rw [p2]; exact s1) p5 (logN + k) _ _ rand.witness rand.witness fin.qa
    fin.ql R.wit R.wit dw dw (by omega) (by simp [a4, a5]) p4 p3 rfl _ fin.rx _ fin.rx _ hx hx rfl rand.in0 di0 N2
  obtain ⟨-, o1, -, X1, -⟩ := input_same ho hne params p1 (by rw [p2]; exact s1) p5 (logN + k) _ _ rand.witness rand.witness fin.qa
    fin.qr R.wit R.wit dw dw (by omega) (by simp [a4, a6]) p4 p3 rfl _ fin.ry _ fin.ry _ hy hy rfl rand.in1 di1 _
  have A := prove_yields ho params R circuitHash paramHash rand dw N _ _ _ prf fin o0 o1 Z X0 X1
  obtain ⟨p, hp, he⟩ := a9 i hi
  obtain ⟨a, b, e1, e2, e3⟩ := evalComms_leak params g hg (rand.layers (0 + i)).alphaEval logN _ _ j hj hj' (V i)
  exact ⟨_, _, p, a, b, A, hp, by rw [he]; exact e1, by rw [he]; exact e2, e3⟩

/-- The shapes of `C86_partial`. -/
theorem ready_of (ni na : Nat) (raw : List (List (Nat × Nat × Nat))) (c : Circuit)
    (hc : Circuit.new ni na raw = .ok c) (L : Nat) (hL : raw.length = L + 1) (k : Nat) (hk : k = Nat.clog 2 (max na ni))
    (ht : Tapers (2 * 2 ^ k) raw) (ps : List (List F × List F)) (logN : Nat) (hN : 1 ≤ logN) (hn : ps.length = 2 ^ logN)
    (hlen : ∀ p ∈ ps, p.1.length ≤ ni ∧ p.2.length = p.1.length ∧ p.2.length ≤ na ∧ Nat.clog 2 p.1.length = k) :
    Ready c L k (sizeLog (2 * 2 ^ k) raw) logN
      (fun p => layout (2 ^ k) p.1 p.2 :: circuitValues (layout (2 ^ k) p.1 p.2) raw) ps := by
  have hl := (C55_accepted ni na raw).1 ⟨c, hc⟩
  have heval : ∀ p ∈ ps, c.evaluate p.1 p.2 =
      .ok (layout (2 ^ k) p.1 p.2 :: circuitValues (layout (2 ^ k) p.1 p.2) raw) := by
    intro p hp
    obtain ⟨l1, l2, l3, _⟩ := hlen p hp
    obtain ⟨v0, e0, _, ev⟩ := C55_evaluates ni na raw c hc p.1 p.2 l1 l3
    rw [(C54_partial ni na p.1 p.2 l1 l3 l2.symm).1] at e0
    rw [ev, hk, ← Except.ok.inj e0]
  rw [new_eq ni na raw hl] at hc
  obtain rfl := (Except.ok.inj hc).symm
  have hf := fits_input ni na
  rw [← hk] at hl hf
  have hv : ∀ v ∈ ps.map (fun p => layout (2 ^ k) p.1 p.2), v.length = 2 * 2 ^ k := by
    intro v hv
    obtain ⟨p, hp, rfl⟩ := List.mem_map.1 hv
    obtain ⟨l1, l2, l3, _⟩ := hlen p hp
    simp only [layout, List.length_append, List.length_replicate]; omega
  have hon := honest_of ni na raw (ps.map fun p => layout (2 ^ k) p.1 p.2) logN (hk ▸ hl) (hk ▸ ht) (by simpa using hn)
    (hk ▸ hv)
  obtain ⟨s1, s2⟩ := tapers_size raw (2 * 2 ^ k) ⟨k + 1, by rw [pow_succ]; omega⟩ ht
  rw [← hk] at hon
  obtain ⟨s, hs⟩ : ∃ s, s = sizeLog (2 * 2 ^ k) raw := ⟨_, rfl⟩
  rw [← hs] at hon s1 s2
  have hs0 : s 0 = k + 1 := by
    rw [hs]; simp only [sizeLog, counts, List.getD_cons_zero]
    rw [show 2 * 2 ^ k = 2 ^ (k + 1) by rw [pow_succ]; omega, Nat.clog_pow 2 _ (by decide)]
  have hpad : ∀ p ∈ ps, padTo p.1.length = 2 ^ k ∧ padTo p.2.length = 2 ^ k := by
    intro p hp
    obtain ⟨l1, l2, l3, l4⟩ := hlen p hp
    exact ⟨by rw [padTo, l4], by rw [padTo, l2, l4]⟩
  have hlen' : ∀ p ∈ ps, p.1.length ≤ 2 ^ k ∧ p.2.length ≤ 2 ^ k := by
    intro p hp
    obtain ⟨l1, l2, l3, l4⟩ := hlen p hp
    omega
  have hE : (ps.map fun p => layout (2 ^ k) p.1 p.2).map (fun v => v :: circuitValues v raw) =
      ps.map fun p => layout (2 ^ k) p.1 p.2 :: circuitValues (layout (2 ^ k) p.1 p.2) raw := by rw [List.map_map]; rfl
  rw [← hs]
  refine ⟨⟨by simp [layersOf, hL], by simp [hL], hN, ?_⟩, hs0, fun i hi => s2 i (by omega), hn, heval, fun p hp => ?_, fun p hp => ?_, ?_,
    fun qa q hq => ?_⟩
  · rw [← hE]; exact hon
  · have h2 := congrArg List.length (circuitValues_lengths raw (layout (2 ^ k) p.1 p.2))
    simp only [List.length_map, counts, List.length_cons] at h2
    rw [List.getLastD_eq_getLast?, List.getLast?_eq_getElem?, List.getD_eq_getElem?_getD]
    congr 2
    simp only [List.length_cons]; omega
  · rw [← s1 (L + 1) (by omega), ← hL]
    exact tapers_top raw _ _ (hv _ (List.mem_map.2 ⟨p, hp, rfl⟩))
  · rw [inputVec_len _ (2 ^ k) (by
      intro v hv; obtain ⟨p, hp, rfl⟩ := List.mem_map.1 hv; exact (hpad p hp).2), List.length_map, hn, pow_add]
  · rw [← hE]; exact input_value s raw k hs0 ps hlen' hpad qa q hq

theorem good_of (num : Nat) (r : ParamRand G) (hs : Spans F r.h) (hs3 : Spans F r.h3) (hs4 : Spans F r.h4) (m : Nat) (hm : m ≤ num) :
    Good F (paramsNew num r) m := by
  have hsize : 2 ^ (m - m / 2) ≤ 2 ^ (num - num / 2) := Nat.pow_le_pow_right (by decide) (by omega)
  exact ⟨rfl, rfl, hsize, by simpa [paramsNew, multiNew] using hsize, by simp [paramsNew], hs, hs3, hs4⟩

end Zkp.Hx
