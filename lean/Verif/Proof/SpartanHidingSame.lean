/- The steps of Spartan's prover for another witness, and that they determine the random values. -/
import Verif.Proof.SpartanHidingSat

namespace Zkp.Spartan

open Zkp.Ml Zkp.Sc Zkp.Cp

set_option linter.unusedSectionVars false
set_option linter.unusedSimpArgs false

variable {F : Type} [Field F] {G : Type} [AddCommGroup G] [Module F G] [DecidableEq F] [DecidableEq G]

theorem total_one_zero (s : Inst F) (z : Index → F) (nx : Nat) (tau : List F) (ht : tau.length = nx)
    (hpow : s.numConstraints = 2 ^ nx) (hsat : s.Sat z) :
    0 = total spartanOne [evalEq tau, rowTab s.a z nx, rowTab s.b z nx, rowTab s.c z nx] := by
  unfold total
  rw [show [evalEq tau, rowTab s.a z nx, rowTab s.b z nx, rowTab s.c z nx] = tabsOne s z nx tau from rfl,
    tableLen_eq (tabsOne_ok s z nx tau ht)]
  symm
  refine Finset.sum_eq_zero fun j hj => ?_
  have hj := Finset.mem_range.1 hj
  simp only [spartanOne, cells, tabsOne, List.getD_cons_zero, List.getD_cons_succ]
  unfold rowTab
  rw [getD_map_range _ _ hj, getD_map_range _ _ hj, getD_map_range _ _ hj, hsat.2 j (by rw [hpow]; exact hj)]
  ring

theorem steps_same (h2 : (2 : F) ≠ 0) (h3 : (3 : F) ≠ 0) {ch : Oracle F G} (ho : Oblivious ch)
    (hne : ∀ t, ch (t ++ [.chal "x"]) ≠ 0) (params : SatParams G)
    (hg : params.pc.gen1 = params.gen1) (hh : params.pc.genN.h = params.gen1.h) (hg1 : params.gen1.generators ≠ [])
    (hs1 : Spans F params.gen1.h) (hs3 : Spans F params.gen3.h) (hs4 : Spans F params.gen4.h)
    (s : Inst F) (inputs : List F) (m nx n : Nat) (hpow : s.numConstraints = 2 ^ nx) (hi : inputs.length + 1 ≤ 2 ^ m)
    (hf1 : Ml.Fits s.a nx m) (hf2 : Ml.Fits s.b nx m) (hf3 : Ml.Fits s.c nx m)
    (hgN : 2 ^ (m - m / 2) ≤ params.pc.genN.generators.length) (w w' : List F) (hw : w.length = 2 ^ m) (hw' : w'.length = 2 ^ m)
    (hsat : s.Sat (assign (fun i => (zTab w inputs m).getD i 0) inputs))
    (hsat' : s.Sat (assign (fun i => (zTab w' inputs m).getD i 0) inputs))
    (he : mle w' (pointY ch n nx m).tail = mle w (pointY ch n nx m).tail) (rand : SatRand F) (hr : rand.Shape nx m) :
    ∃ (rand' : SatRand F) (proof : SatProof F G) (b1 b2 b1' b2' : F), rand'.Shape nx m ∧
      Steps ch params s inputs m nx n w rand proof b1 b2 ∧ Steps ch params s inputs m nx n w' rand' proof b1' b2' := by
  obtain ⟨wit', hwl', hcom⟩ := pack_same params.pc.genN.generators params.pc.genN.h (by rw [hh]; exact hs1) m w w' rand.witness
  have htaul := chals_length ch (n + 2) nx
  have hxl : (pointX ch n nx).length = nx := roundChals_length _ _ _
  have hyl : (pointY ch n nx m).length = m + 1 := roundChals_length _ _ _
  -- the first sum-check
  obtain ⟨one', p1, b1, b1', l1, d1, c1, y1, y1'⟩ := phaseOne_same h2 h3 ho params hs1 hs4 _ _ _ _ _ _ _ rand.one hr.oneD
    (by rw [hr.one]; exact tabsOne_ok s (assign (fun i => (zTab w inputs m).getD i 0) inputs) nx _ htaul)
    (by rw [hr.one]; exact tabsOne_ok s (assign (fun i => (zTab w' inputs m).getD i 0) inputs) nx _ htaul)
    (total_one_zero s _ nx _ htaul hpow hsat) (total_one_zero s _ nx _ htaul hpow hsat') (n + 2 + nx) (pointX ch n nx)
    (by rw [hr.one]; rfl)
  rw [hr.one] at l1 y1 y1'
  set et := mle (evalEq (chals ch (n + 2) nx)) (pointX ch n nx) with het
  change commitVec _ [et * (valAt s.a w inputs m nx (pointX ch n nx) * valAt s.b w inputs m nx (pointX ch n nx) -
    valAt s.c w inputs m nx (pointX ch n nx))] _ _ = commitVec _ [et * (valAt s.a w' inputs m nx (pointX ch n nx) *
    valAt s.b w' inputs m nx (pointX ch n nx) - valAt s.c w' inputs m nx (pointX ch n nx))] _ _ at c1
  obtain ⟨va, hva⟩ : ∃ v, v = valAt s.a w inputs m nx (pointX ch n nx) := ⟨_, rfl⟩
  obtain ⟨vb, hvb⟩ : ∃ v, v = valAt s.b w inputs m nx (pointX ch n nx) := ⟨_, rfl⟩
  obtain ⟨vc, hvc⟩ : ∃ v, v = valAt s.c w inputs m nx (pointX ch n nx) := ⟨_, rfl⟩
  obtain ⟨va', hva'⟩ : ∃ v, v = valAt s.a w' inputs m nx (pointX ch n nx) := ⟨_, rfl⟩
  obtain ⟨vb', hvb'⟩ : ∃ v, v = valAt s.b w' inputs m nx (pointX ch n nx) := ⟨_, rfl⟩
  obtain ⟨vc', hvc'⟩ : ∃ v, v = valAt s.c w' inputs m nx (pointX ch n nx) := ⟨_, rfl⟩
  rw [← hva, ← hvb, ← hvc, ← hva', ← hvb', ← hvc'] at c1
  -- the values
  obtain ⟨ra', ea⟩ := hs1.blind params.gen1.generators (commitVec params.gen1.generators [va] params.gen1.h rand.a) [va']
  obtain ⟨rb', eb⟩ := hs1.blind params.gen1.generators (commitVec params.gen1.generators [vb] params.gen1.h rand.b) [vb']
  obtain ⟨rc', ec⟩ := hs1.blind params.gen1.generators (commitVec params.gen1.generators [vc] params.gen1.h rand.c) [vc']
  obtain ⟨rp', ep⟩ := hs1.blind params.gen1.generators (commitVec params.gen1.generators [va * vb] params.gen1.h rand.prod)
    [va' * vb']
  obtain ⟨t1', t2', kn, yk, yk'⟩ := knowledge_same ho params.gen1 vc rand.c vc' rc' ec.symm rand.t1 rand.t2 (posOne n nx)
  obtain ⟨q1, q2, q3, q4, q5, pd, yp, yp'⟩ := product_same ho params.gen1 va rand.a vb rand.b rand.prod va' ra' vb' rb' rp'
    ea.symm eb.symm ep.symm rand.b1 rand.b2 rand.b3 rand.b4 rand.b5 (posOne n nx + 3)
  obtain ⟨e1, ye, ye'⟩ := eq_same ho params.gen1 hs1 (et * (va * vb - vc)) (et * (rand.prod - rand.c)) b1
    (et * (va' * vb' - vc')) (et * (rp' - rc')) b1' (by
      simp only [commitVec_one] at ec ep ⊢
      linear_combination (norm := module) (-et) • ep + et • ec) c1 rand.eq1 (posOne n nx + 14)
  -- the second sum-check
  obtain ⟨ca, hca⟩ : ∃ v, v = chalAt ch (posOne n nx + 19) := ⟨_, rfl⟩
  obtain ⟨cb, hcb⟩ : ∃ v, v = chalAt ch (posOne n nx + 20) := ⟨_, rfl⟩
  obtain ⟨cc, hcc⟩ : ∃ v, v = chalAt ch (posOne n nx + 21) := ⟨_, rfl⟩
  have htab : tabTwo ch s n nx m = combTab s (pointX ch n nx) m ca cb cc := by rw [hca, hcb, hcc]; rfl
  obtain ⟨two', p2, b2, b2', l2, d2, c2, y2, y2'⟩ := phaseTwo_same h2 ho params hs1 hs3 (tabTwo ch s n nx m) (zTab w inputs m)
    (zTab w' inputs m) rand.two (by intro h; have := hr.two; rw [h] at this; simp at this) hr.twoD
    (by rw [hr.two, htab]; exact tabsTwo_ok s w inputs m hw hi _ _ _ _)
    (by rw [hr.two, htab]; exact tabsTwo_ok s w' inputs m hw' hi _ _ _ _)
    (va * ca + vb * cb + vc * cc) (rand.a * ca + rand.b * cb + rand.c * cc)
    (va' * ca + vb' * cb + vc' * cc) (ra' * ca + rb' * cb + rc' * cc)
    (by rw [htab, total_two s w inputs m nx hw hi hf1 hf2 hf3 _ hxl, hva, hvb, hvc]; unfold valAt; ring)
    (by rw [htab, total_two s w' inputs m nx hw' hi hf1 hf2 hf3 _ hxl, hva', hvb', hvc']; unfold valAt; ring)
    (by
      simp only [commitVec_one] at ea eb ec ⊢
      linear_combination (norm := module) (-ca) • ea - cb • eb - cc • ec)
    (posOne n nx + 21) (pointY ch n nx m) (by rw [hr.two]; rfl)
  rw [hr.two] at l2 y2 y2'
  obtain ⟨y0, ys, hys⟩ : ∃ y0 ys, pointY ch n nx m = y0 :: ys := by
    cases hq : pointY ch n nx m with
    | nil => rw [hq] at hyl; simp at hyl
    | cons y0 ys => exact ⟨_, _, rfl⟩
  have hysl : ys.length = m := by rw [hys] at hyl; simpa using hyl
  have hz : mle (zTab w' inputs m) (pointY ch n nx m) = mle (zTab w inputs m) (pointY ch n nx m) := by
    rw [hys, List.tail_cons] at he
    rw [hys, mle_zTab w inputs m hw y0 ys hysl, mle_zTab w' inputs m hw' y0 ys hysl, he]
  rw [hz] at c2
  obtain ⟨d', rD', rB', bl', dt, hbl', yd, yd'⟩ := evaluation_same ho hne params.pc (by rw [hg, hh]) (by rw [hg]; exact hs1)
    (by rw [hg]; exact hg1) m w w' rand.witness wit' (pointY ch n nx m).tail hw hw' hr.witness hwl' (by simp [hyl]) hgN hcom he
    rand.eval rand.d rand.rDelta rand.rBeta rand.bullet hr.bullet (posTwo n nx m)
  obtain ⟨e2, yf, yf'⟩ := eq_same ho params.pc.gen1 (by rw [hg]; exact hs1)
    (mle (tabTwo ch s n nx m) (pointY ch n nx m) * mle (zTab w inputs m) (pointY ch n nx m))
    ((1 - (pointY ch n nx m).headD 0) * rand.eval * mle (tabTwo ch s n nx m) (pointY ch n nx m)) b2
    (mle (tabTwo ch s n nx m) (pointY ch n nx m) * mle (zTab w inputs m) (pointY ch n nx m))
    ((1 - (pointY ch n nx m).headD 0) * rand.eval * mle (tabTwo ch s n nx m) (pointY ch n nx m)) b2' rfl
    (by rw [hg, mul_comm]; exact c2) rand.eq2 (posTwo n nx m + 3 * (m - m / 2) + 6)
  refine ⟨⟨wit', one', two', ra', rb', rc', rp', t1', t2', q1, q2, q3, q4, q5, rand.eq1, rand.eval, d', rD', rB', bl', rand.eq2⟩,
    ⟨rowComms params.pc.genN.generators params.pc.genN.h m w rand.witness, p1, p2, mle w (pointY ch n nx m).tail, dt,
      commitVec params.gen1.generators [va] params.gen1.h rand.a, commitVec params.gen1.generators [vb] params.gen1.h rand.b,
      commitVec params.gen1.generators [vc] params.gen1.h rand.c,
      commitVec params.gen1.generators [va * vb] params.gen1.h rand.prod, kn, pd, e1, e2,
      commitVec params.pc.gen1.generators [mle w (pointY ch n nx m).tail] params.pc.gen1.h rand.eval⟩, b1, b2, b1', b2',
    ⟨hwl', l1, d1, l2, d2, hbl'⟩, ?_, ?_⟩
  · subst hva hvb hvc hca hcb hcc
    exact ⟨rfl, y1, yk, rfl, yp, rfl, rfl, rfl, ye, y2, rfl, yd, rfl, yf⟩
  · subst hva' hvb' hvc' hca hcb hcc
    exact ⟨hcom.symm, y1', yk', ec.symm, yp', ea.symm, eb.symm, ep.symm, ye', y2', he.symm, yd', by rw [he], by rw [hz]; exact yf'⟩

theorem steps_inj (h2 : (2 : F) ≠ 0) (h3 : (3 : F) ≠ 0) {ch : Oracle F G} (ho : Oblivious ch)
    (hne : ∀ t, ch (t ++ [.chal "x"]) ≠ 0) (params : SatParams G)
    (hg : params.pc.gen1 = params.gen1) (hh : params.pc.genN.h = params.gen1.h) (hg1 : params.gen1.generators ≠ [])
    (hs1 : Spans F params.gen1.h) (hs3 : Spans F params.gen3.h) (hs4 : Spans F params.gen4.h)
    (s : Inst F) (inputs : List F) (m nx n : Nat) (hi : inputs.length + 1 ≤ 2 ^ m)
    (hgN : 2 ^ (m - m / 2) ≤ params.pc.genN.generators.length) (w : List F) (hw : w.length = 2 ^ m)
    (rand rand' : SatRand F) (hr : rand.Shape nx m) (hr' : rand'.Shape nx m) (proof : SatProof F G) (b1 b2 b1' b2' : F)
    (h : Steps ch params s inputs m nx n w rand proof b1 b2) (h' : Steps ch params s inputs m nx n w rand' proof b1' b2') :
    rand = rand' := by
  have htaul := chals_length ch (n + 2) nx
  have hyl : (pointY ch n nx m).length = m + 1 := roundChals_length _ _ _
  have ewit := pack_inj params.pc.genN.generators params.pc.genN.h (by rw [hh]; exact hs1) m w rand.witness rand'.witness hr.witness
    hr'.witness (h.com.symm.trans h'.com)
  have eone := phaseOne_inj h2 h3 ho params hs1 hs4 _ _ _ _ rand.one rand'.one hr.oneD hr'.oneD (by rw [hr.one, hr'.one])
    (by rw [hr.one]; exact tabsOne_ok s (assign (fun i => (zTab w inputs m).getD i 0) inputs) nx _ htaul) _ _ _ _ _ _ h.one h'.one
  have eb1 : b1 = b1' := by
    have := h.one
    rw [eone] at this
    simpa only [Prod.mk.injEq, true_and] using (this.unique h'.one).1
  have ec := hs1.blind_inj (h.vc.symm.trans h'.vc)
  have ea := hs1.blind_inj (h.va.symm.trans h'.va)
  have eb := hs1.blind_inj (h.vb.symm.trans h'.vb)
  have ep := hs1.blind_inj (h.vab.symm.trans h'.vab)
  have hk := h.know
  rw [ec] at hk
  obtain ⟨et1, et2⟩ := knowledge_inj ho params.gen1 _ _ _ _ _ _ _ _ _ _ _ _ hk h'.know
  have hp := h.prod
  rw [ea, eb, ep] at hp
  obtain ⟨e1, e2, e3, e4, e5⟩ := product_inj ho params.gen1 _ _ _ _ _ _ _ _ _ _ _ _ _ _ _ _ _ _ _ _ _ _ hp h'.prod
  have hq := h.eq1
  rw [ep, ec, eb1] at hq
  have eeq1 := eq_inj ho params.gen1 _ _ _ _ _ _ _ _ _ _ hq h'.eq1
  have ht := h.two
  rw [ea, eb, ec] at ht
  have etwo := phaseTwo_inj h2 ho params hs1 hs3 _ _ rand.two rand'.two hr.twoD hr'.twoD (by rw [hr.two, hr'.two])
    (by rw [hr.two]; exact tabsTwo_ok s w inputs m hw hi _ _ _ _) _ _ _ _ _ _ _ _ ht h'.two
  have eb2 : b2 = b2' := by
    rw [etwo] at ht
    simpa only [Prod.mk.injEq, true_and] using (ht.unique h'.two).1
  have eev := (show Spans F params.pc.gen1.h by rw [hg]; exact hs1).blind_inj (h.cRy.symm.trans h'.cRy)
  have hd := h.dot
  rw [ewit, eev] at hd
  obtain ⟨f1, f2, f3, f4⟩ := evaluation_inj ho hne params.pc (by rw [hg, hh]) (by rw [hg]; exact hs1)
    (by rw [hg]; exact hg1) m w rand'.witness (pointY ch n nx m).tail hw hr'.witness (by simp [hyl]) hgN
    rand'.eval rand.d rand.rDelta rand.rBeta rand'.d rand'.rDelta rand'.rBeta rand.bullet rand'.bullet hr.bullet hr'.bullet
    _ _ _ _ _ _ hd h'.dot
  have hq := h.eq2
  rw [eev, eb2] at hq
  have eeq2 := eq_inj ho params.pc.gen1 _ _ _ _ _ _ _ _ _ _ hq h'.eq2
  obtain ⟨r1, r2, r3, r4, r5, r6, r7, r8, r9, r10, r11, r12, r13, r14, r15, r16, r17, r18, r19, r20, r21⟩ := rand
  obtain ⟨s1, s2, s3, s4, s5, s6, s7, s8, s9, s10, s11, s12, s13, s14, s15, s16, s17, s18, s19, s20, s21⟩ := rand'
  simp only at *
  subst ewit eone etwo ea eb ec ep et1 et2 e1 e2 e3 e4 e5 eeq1 eev f1 f2 f3 f4 eeq2
  rfl

end Zkp.Spartan
