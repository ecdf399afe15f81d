/- Property C97: the proofs about commitments reveal nothing beyond the statement. -/
import Verif.Proof.CommitHiding
import Verif.Props.CommitProofs

namespace Zkp.Cp

open Zkp.Ml Zkp.Spartan

set_option linter.unusedSectionVars false
set_option linter.unusedSimpArgs false

variable {F : Type} [Field F] {G : Type} [AddCommGroup G] [Module F G] [DecidableEq F] [DecidableEq G]

theorem ok_iff {α : Type} {x y : α} {t : Transcript F G} :
    (∃ t', (Except.ok (x, t) : Except Stop (α × Transcript F G)) = .ok (y, t')) ↔ x = y :=
  ⟨fun ⟨_, h⟩ => (Prod.mk.inj (Except.ok.inj h)).1, fun h => ⟨t, by rw [h]⟩⟩

/-- C97, proof of knowledge.  Let the challenge be fixed beforehand.  For every pair of answers there is one
first message the verifier accepts with them (so a simulator can find it without the opening), and exactly one
choice of the prover's random values makes the prover send all this.  Hence the proof has the same distribution
for every opening of the commitment. -/
theorem C97_knowledge (ch : Oracle F G) (ho : Oblivious ch) (params : MultiParams G) (v blind : F)
    (tr : Transcript F G) (z1 z2 : F) :
    ∃ t : G, (∀ t' : G, (∃ tr', knowledgeVerify ch params ⟨t', z1, z2⟩
        (commitVec params.generators [v] params.h blind) tr = .ok (true, tr')) ↔ t' = t) ∧
      ∃! p : F × F, ∃ tr', knowledgeProve ch params v blind p.1 p.2 tr =
        .ok ((⟨t, z1, z2⟩, commitVec params.generators [v] params.h blind), tr') := by
  set cm := commitVec params.generators [v] params.h blind with hcm
  set c := chalAt ch (tr.length + 3)
  have hc : ∀ p : G, ch (tr ++ [.pt "C" cm] ++ [.pt "alpha" p] ++ [.chal "c"]) = c := by
    intro p; rw [ho.eq]; simp [c]
  have hrunV : ∀ t', knowledgeVerify ch params ⟨t', z1, z2⟩ cm tr =
      .ok (decide (commitVec params.generators [z1] params.h z2 = c • cm + t'),
        tr ++ [.pt "C" cm] ++ [.pt "alpha" t'] ++ [.chal "c"]) := fun t' => by rw [← hc t']; rfl
  have hrunP : ∀ t1 t2, knowledgeProve ch params v blind t1 t2 tr =
      .ok ((⟨commitVec params.generators [t1] params.h t2, v * c + t1, blind * c + t2⟩, cm),
        tr ++ [.pt "C" cm] ++ [.pt "alpha" (commitVec params.generators [t1] params.h t2)] ++ [.chal "c"]) :=
    fun t1 t2 => by rw [← hc (commitVec params.generators [t1] params.h t2)]; rfl
  refine ⟨commitVec params.generators [z1] params.h z2 - c • cm, fun t' => ?_, (z1 - v * c, z2 - blind * c),
    ?_, ?_⟩
  · rw [hrunV, ok_iff, decide_eq_true_eq]
    exact ⟨fun h => by rw [h]; abel, fun h => by rw [h]; abel⟩
  · simp only
    rw [hrunP, ok_iff]
    congr 2
    · rw [hcm]
      simp only [commitVec_one]
      module
    · ring
    · ring
  · rintro ⟨t1, t2⟩ h
    simp only at h
    rw [hrunP, ok_iff] at h
    have h1 := (Prod.mk.inj h).1
    simp only [KnowProof.mk.injEq] at h1
    rw [← h1.2.1, ← h1.2.2]
    ext <;> simp

/-- C97, proof of equality: as above, for one answer. -/
theorem C97_equality (ch : Oracle F G) (ho : Oblivious ch) (params : MultiParams G) (v blind1 blind2 : F)
    (tr : Transcript F G) (z : F) :
    ∃ t : G, (∀ t' : G, (∃ tr', eqVerify ch params (commitVec params.generators [v] params.h blind1)
        (commitVec params.generators [v] params.h blind2) ⟨t', z⟩ tr = .ok (true, tr')) ↔ t' = t) ∧
      ∃! r : F, ∃ tr', eqProve ch params v blind1 v blind2 r tr = .ok (⟨t, z⟩, tr') := by
  set c1 := commitVec params.generators [v] params.h blind1 with hc1
  set c2 := commitVec params.generators [v] params.h blind2 with hc2
  set c := chalAt ch (tr.length + 4)
  have hc : ∀ p : G, ch (tr ++ [.pt "C1" c1] ++ [.pt "C2" c2] ++ [.pt "alpha" p] ++ [.chal "c"]) = c := by
    intro p; rw [ho.eq]; simp [c]
  have hrunP : ∀ r, eqProve ch params v blind1 v blind2 r tr = .ok (⟨r • params.h, c * (blind1 - blind2) + r⟩,
      tr ++ [.pt "C1" c1] ++ [.pt "C2" c2] ++ [.pt "alpha" (r • params.h)] ++ [.chal "c"]) :=
    fun r => by rw [← hc (r • params.h)]; rfl
  have hrunV : ∀ t', eqVerify ch params c1 c2 ⟨t', z⟩ tr = .ok (decide (z • params.h = c • (c1 - c2) + t'),
      tr ++ [.pt "C1" c1] ++ [.pt "C2" c2] ++ [.pt "alpha" t'] ++ [.chal "c"]) :=
    fun t' => by rw [← hc t']; rfl
  refine ⟨z • params.h - c • (c1 - c2), fun t' => ?_, z - c * (blind1 - blind2), ?_, ?_⟩
  · rw [hrunV, ok_iff, decide_eq_true_eq]
    exact ⟨fun h => by rw [h]; abel, fun h => by rw [h]; abel⟩
  · simp only
    rw [hrunP, ok_iff]
    congr 1
    · rw [hc1, hc2]
      simp only [commitVec_one]
      module
    · ring
  · intro r h
    rw [hrunP, ok_iff] at h
    simp only [EqProof.mk.injEq] at h
    rw [← h.2]
    ring

/-- C97, proof of a product: as above, for five answers and three points. -/
theorem C97_product (ch : Oracle F G) (ho : Oblivious ch) (params : MultiParams G)
    (x blindX y blindY blindProd : F) (tr : Transcript F G) (z1 z2 z3 z4 z5 : F) :
    let cx := commitVec params.generators [x] params.h blindX
    let cy := commitVec params.generators [y] params.h blindY
    let cz := commitVec params.generators [x * y] params.h blindProd
    ∃ a b d : G, (∀ a' b' d' : G, (∃ tr', productVerify ch params ⟨a', b', d', [z1, z2, z3, z4, z5]⟩ cx cy cz tr =
        .ok (true, tr')) ↔ a' = a ∧ b' = b ∧ d' = d) ∧
      ∃! p : F × F × F × F × F, ∃ tr', productProve ch params x blindX y blindY (x * y) blindProd
        p.1 p.2.1 p.2.2.1 p.2.2.2.1 p.2.2.2.2 tr =
        .ok ((⟨a, b, d, [z1, z2, z3, z4, z5]⟩, cx, cy, cz), tr') := by
  intro cx cy cz
  set c := chalAt ch (tr.length + 7)
  have hc : ∀ a b d : G, ch (tr ++ [.pt "X" cx] ++ [.pt "Y" cy] ++ [.pt "Z" cz] ++ [.pt "alpha" a] ++
      [.pt "beta" b] ++ [.pt "delta" d] ++ [.chal "c"]) = c := by
    intro a b d; rw [ho.eq]; simp [c]
  have hrunP : ∀ b1 b2 b3 b4 b5, productProve ch params x blindX y blindY (x * y) blindProd b1 b2 b3 b4 b5 tr =
      .ok ((⟨commitVec params.generators [b1] params.h b2, commitVec params.generators [b3] params.h b4,
        commitVec [cx] [b3] params.h b5, [b1 + c * x, b2 + c * blindX, b3 + c * y, b4 + c * blindY,
          b5 + c * (blindProd - blindX * y)]⟩, cx, cy, cz),
        tr ++ [.pt "X" cx] ++ [.pt "Y" cy] ++ [.pt "Z" cz] ++
          [.pt "alpha" (commitVec params.generators [b1] params.h b2)] ++
          [.pt "beta" (commitVec params.generators [b3] params.h b4)] ++
          [.pt "delta" (commitVec [cx] [b3] params.h b5)] ++ [.chal "c"]) := by
    intro b1 b2 b3 b4 b5
    rw [← hc (commitVec params.generators [b1] params.h b2) (commitVec params.generators [b3] params.h b4)
      (commitVec [cx] [b3] params.h b5)]
    rfl
  have hrunV : ∀ a' b' d', productVerify ch params ⟨a', b', d', [z1, z2, z3, z4, z5]⟩ cx cy cz tr = .ok (
      decide (a' + c • cx = commitVec params.generators [z1] params.h z2) &&
        decide (b' + c • cy = commitVec params.generators [z3] params.h z4) &&
        decide (d' + c • cz = commitVec [cx] [z3] params.h z5),
      tr ++ [.pt "X" cx] ++ [.pt "Y" cy] ++ [.pt "Z" cz] ++ [.pt "alpha" a'] ++
        [.pt "beta" b'] ++ [.pt "delta" d'] ++ [.chal "c"]) := by
    intro a' b' d'
    rw [← hc a' b' d']
    rfl
  refine ⟨commitVec params.generators [z1] params.h z2 - c • cx, commitVec params.generators [z3] params.h z4 - c • cy,
    commitVec [cx] [z3] params.h z5 - c • cz, fun a' b' d' => ?_,
    (z1 - c * x, z2 - c * blindX, z3 - c * y, z4 - c * blindY, z5 - c * (blindProd - blindX * y)), ?_, ?_⟩
  · rw [hrunV, ok_iff]
    simp only [Bool.and_eq_true, decide_eq_true_eq, eq_sub_iff_add_eq, and_assoc]
  · simp only
    rw [hrunP, ok_iff]
    congr 2
    · simp only [cx, commitVec_one]
      module
    · simp only [cy, commitVec_one]
      module
    · simp only [cx, cz, commitVec_one, List.headD_cons]
      module
    · simp
  · rintro ⟨b1, b2, b3, b4, b5⟩ h
    simp only at h
    rw [hrunP, ok_iff] at h
    have h1 := (Prod.mk.inj h).1
    simp only [ProdProof.mk.injEq, List.cons.injEq] at h1
    obtain ⟨-, -, -, rfl, rfl, rfl, rfl, rfl, -⟩ := h1
    simp

/-- C97, logarithmic dot-product proof (Hyrax's and Libra's evaluation proof, and Spartan's inner-product proof):
as above.  The points `L`, `R`, `beta` and both answers can be anything; there is one `delta` the verifier accepts
with them, and exactly one choice of the prover's random values makes the prover send all this. -/
theorem C97_log_dot (ch : Oracle F G) (ho : Oblivious ch) (hne : ∀ t, ch (t ++ [.chal "x"]) ≠ 0) (label : String)
    (params : PcParams G) (hh : params.genN.h = params.gen1.h) (hs : Spans F params.gen1.h)
    (h1 : params.gen1.generators ≠ []) (x a : List F) (k : Nat) (hx : x.length = 2 ^ k) (ha : a.length = 2 ^ k)
    (hg : 2 ^ k ≤ params.genN.generators.length) (blindX blindY : F) (tr : Transcript F G)
    (L R : List G) (hL : L.length = k) (hR : R.length = k) (beta : G) (z1 z2 : F) :
    let cx := commitVec params.genN.generators x params.genN.h blindX
    let cy := commitVec params.gen1.generators [dot x a] params.gen1.h blindY
    ∃ delta : G, (∀ delta' : G, (∃ tr', logDotVerify ch label params cx cy a ⟨L, R, delta', beta, z1, z2⟩ tr =
        .ok (true, tr')) ↔ delta' = delta) ∧
      ∃! p : List (F × F) × F × F × F, p.1.length = k ∧
        ∃ tr', logDotProve ch label params x blindX a (dot x a) blindY p.2.1 p.2.2.1 p.2.2.2 p.1 tr =
          .ok ((⟨L, R, delta, beta, z1, z2⟩, cx, cy), tr') := by
  intro cx cy
  obtain ⟨q, gs, hgs⟩ := List.exists_cons_of_ne_nil h1
  have hlog : Nat.log2 x.length = k := by rw [hx, Nat.log2_two_pow]
  obtain ⟨a0, b0, g0, Ms, Ns, hM, hN, hrun⟩ := bulletLoop_blinds ho hne q params.gen1.h k (tr.length + 2)
    params.genN.generators x a hx ha hg
  set c := chalAt ch (tr.length + 2 + 3 * k + 3) with hcdef
  -- the prover's run
  have hrunP : ∀ blinds : List (F × F), blinds.length = k → ∃ bl : F, ∀ d rBeta rDelta, ∃ tr',
      logDotProve ch label params x blindX a (dot x a) blindY d rBeta rDelta blinds tr =
        .ok ((⟨List.zipWith (fun m b => m + b.1 • params.gen1.h) Ms blinds,
          List.zipWith (fun m b => m + b.2 • params.gen1.h) Ns blinds, d • g0 + rDelta • params.gen1.h,
          d • q + rBeta • params.gen1.h, d + c * (a0 * b0), b0 * (c * bl + rBeta) + rDelta⟩, cx, cy), tr') := by
    intro blinds hbl
    obtain ⟨bl, tr1, ht1, hr⟩ := hrun (blindX + blindY) blinds (tr ++ [.pt "Cx" cx] ++ [.pt "Cy" cy]) (by simp) hbl
    refine ⟨bl, fun d rBeta rDelta => ?_⟩
    suffices hR : Runs (logDotProve ch label params x blindX a (dot x a) blindY d rBeta rDelta blinds) tr
        (fun p _ => p = (⟨List.zipWith (fun m b => m + b.1 • params.gen1.h) Ms blinds,
          List.zipWith (fun m b => m + b.2 • params.gen1.h) Ns blinds, d • g0 + rDelta • params.gen1.h,
          d • q + rBeta • params.gen1.h, d + c * (a0 * b0), b0 * (c * bl + rBeta) + rDelta⟩, cx, cy)) by
      obtain ⟨p, tr', h, rfl⟩ := hR; exact ⟨tr', h⟩
    unfold logDotProve bulletProve
    refine Runs.say.bind fun _ _ e => ?_
    subst e
    refine Runs.say.bind fun _ _ e => ?_
    subst e
    refine (Runs.orPanic (a := q) (by rw [hgs]; rfl)).bind fun _ _ e => ?_
    obtain ⟨rfl, rfl⟩ := e
    refine Runs.bind (P := fun p t => p = ⟨List.zipWith (fun m b => m + b.1 • params.gen1.h) Ms blinds,
        List.zipWith (fun m b => m + b.2 • params.gen1.h) Ns blinds, a0, b0, g0, bl⟩ ∧ t = tr1) ?_ ?_
    · refine (Runs.ensure ?_).bind fun _ _ e => ?_
      · simp [isPow2, hx, Nat.log2_two_pow]
      subst e
      refine (Runs.ensure (by rw [hx, ha]; simp)).bind fun _ _ e => ?_
      subst e
      rw [hlog]
      obtain ⟨r, t, h, e⟩ := runs_of hr
      exact ⟨r, t, h, e.1.symm, e.2.symm⟩
    · rintro _ _ ⟨rfl, rfl⟩
      refine Runs.say.bind fun _ _ e => ?_
      subst e
      refine Runs.say.bind fun _ _ e => ?_
      subst e
      refine Runs.challenge.bind fun c' _ e => ?_
      obtain ⟨hc', rfl⟩ := e
      rw [ho.eq] at hc'
      obtain rfl : c' = c := by rw [hc', hcdef]; congr 1; simp [ht1]
      refine Runs.pure ?_
      simp only [commitVec_one, List.headD_cons, hgs, cx, cy]
  obtain ⟨bs, ⟨hb, e1, e2⟩, hu⟩ := blinds_unique hs Ms Ns L R hM hN hL hR
  obtain ⟨bl, hbl⟩ := hrunP bs hb
  obtain ⟨rB, hrB, -⟩ := hs (beta - (z1 - c * (a0 * b0)) • q)
  have hbeta : (z1 - c * (a0 * b0)) • q + rB • params.gen1.h = beta := by rw [← hrB]; abel
  set rD := z2 - b0 * (c * bl + rB) with hrD
  obtain ⟨tr', hp⟩ := hbl (z1 - c * (a0 * b0)) rB rD
  rw [e1, e2, hbeta, sub_add_cancel, hrD, add_sub_cancel] at hp
  set delta := (z1 - c * (a0 * b0)) • g0 + rD • params.gen1.h with hdelta
  refine ⟨delta, fun delta' => ?_, (bs, z1 - c * (a0 * b0), rB, rD), ⟨hb, tr', hp⟩, ?_⟩
  · obtain ⟨-, -, hv⟩ := C57_log_dot ch label params hh _ _ _ _ _ _ _ _ _ _ _ _ _ hp
    unfold logDotVerify at hv
    obtain ⟨_, _, h1', hv⟩ := bind_inv hv
    obtain rfl := say_inv h1'
    obtain ⟨_, _, h1', hv⟩ := bind_inv hv
    obtain rfl := say_inv h1'
    obtain ⟨⟨aH, gH, gaH⟩, tr1, hbv, hv⟩ := bind_inv hv
    obtain ⟨_, _, h1', hv⟩ := bind_inv hv
    obtain rfl := say_inv h1'
    obtain ⟨_, _, h1', hv⟩ := bind_inv hv
    obtain rfl := say_inv h1'
    obtain ⟨c', _, h1', hv⟩ := bind_inv hv
    obtain ⟨hc', rfl⟩ := challenge_inv h1'
    obtain ⟨g, _, h1', hv⟩ := bind_inv hv
    obtain ⟨hgq, rfl⟩ := orPanic_inv h1'
    obtain ⟨he, -⟩ := pure_inv hv
    have he := of_decide_eq_true he
    have hV : Runs (logDotVerify ch label params cx cy a ⟨L, R, delta', beta, z1, z2⟩) tr (fun b _ =>
        b = decide (aH • (c' • gaH + beta) + delta' = z1 • (gH + aH • g) + z2 • params.gen1.h)) := by
      unfold logDotVerify
      refine Runs.say.bind fun _ _ e => ?_
      subst e
      refine Runs.say.bind fun _ _ e => ?_
      subst e
      refine (runs_of hbv).bind fun _ _ e => ?_
      obtain ⟨rfl, rfl⟩ := e
      refine Runs.say.bind fun _ _ e => ?_
      subst e
      refine Runs.say.bind fun _ _ e => ?_
      subst e
      refine Runs.challenge.bind fun c'' _ e => ?_
      obtain ⟨hc'', rfl⟩ := e
      obtain rfl : c'' = c' := by rw [hc'', ← hc']; exact ho _ _ (by simp)
      refine (Runs.orPanic hgq).bind fun _ _ e => ?_
      obtain ⟨rfl, rfl⟩ := e
      exact Runs.pure rfl
    obtain ⟨b, tr2, hV, rfl⟩ := hV
    rw [hV, ok_iff, decide_eq_true_eq, ← he]
    exact add_right_inj _
  · rintro ⟨bs', d, rB', rD'⟩ ⟨hb', tr2, hp'⟩
    simp only at hb' hp'
    obtain ⟨bl', hbl'⟩ := hrunP bs' hb'
    obtain ⟨tr3, hp2⟩ := hbl' d rB' rD'
    rw [hp2] at hp'
    have hq := (Prod.mk.inj (Prod.mk.inj (Except.ok.inj hp')).1).1
    simp only [DotProof.mk.injEq] at hq
    obtain ⟨f1, f2, -, f4, f5, f6⟩ := hq
    obtain rfl := hu bs' ⟨hb', f1, f2⟩
    obtain ⟨tr4, hp3⟩ := hbl 0 0 0
    obtain ⟨tr5, hp4⟩ := hbl' 0 0 0
    obtain rfl : d = z1 - c * (a0 * b0) := by rw [← f5]; ring
    obtain rfl : rB' = rB := hs.inj (add_left_cancel (f4.trans hbeta.symm))
    have hD : rD' = rD := by
      obtain ⟨t6, hp5⟩ := hbl' (z1 - c * (a0 * b0)) rB' rD'
      obtain ⟨t7, hp6⟩ := hbl (z1 - c * (a0 * b0)) rB' rD'
      rw [hp5] at hp6
      have := (Prod.mk.inj (Prod.mk.inj (Except.ok.inj hp6)).1).1
      simp only [DotProof.mk.injEq] at this
      have h6 := this.2.2.2.2.2
      rw [f6] at h6
      rw [hrD, h6]; ring
    rw [hD]

namespace Ex

theorem three_oblivious : Oblivious three := fun _ _ _ => rfl

theorem seven_spans : Spans F17 (7 : F17) := fun p => ⟨p * 5, by
  simp only [smul_eq_mul]; exact ⟨by revert p; decide, by revert p; decide⟩⟩

/-- The hypotheses can be met, with two entries and one folding step, for whatever the messages are. -/
example (l r beta z1 z2 : F17) : ∃ delta : F17, (∀ delta' : F17, (∃ tr', logDotVerify three "c" params
      (commitVec params.genN.generators [1, 2] params.genN.h (3 : F17))
      (commitVec params.gen1.generators [dot [1, 2] [4, (5 : F17)]] params.gen1.h 6) [4, 5]
      ⟨[l], [r], delta', beta, z1, z2⟩ [] = .ok (true, tr')) ↔ delta' = delta) ∧
    ∃! p : List (F17 × F17) × F17 × F17 × F17, p.1.length = 1 ∧
      ∃ tr', logDotProve three "c" params [1, 2] 3 [4, 5] (dot [1, 2] [4, (5 : F17)]) 6 p.2.1 p.2.2.1 p.2.2.2 p.1 [] =
        .ok ((⟨[l], [r], delta, beta, z1, z2⟩, commitVec params.genN.generators [1, 2] params.genN.h (3 : F17),
          commitVec params.gen1.generators [dot [1, 2] [4, (5 : F17)]] params.gen1.h 6), tr') :=
  C97_log_dot three three_oblivious (fun _ => (by decide : (3 : F17) ≠ 0)) "c" params rfl seven_spans (by decide) [1, 2] [4, 5] 1 rfl rfl
    (by decide) 3 6 [] [l] [r] rfl rfl beta z1 z2

/-- The values 4 and 5, committed to with suitable blindings, have the same commitment; the proofs for both are
the same messages, each from its own random values. -/
example : commitVec params.gen1.generators [4] params.gen1.h (6 : F17) =
    commitVec params.gen1.generators [5] params.gen1.h (13 : F17) := by decide

example (z1 z2 : F17) : ∃ t : F17, (∀ t' : F17, (∃ tr', knowledgeVerify three params.gen1 ⟨t', z1, z2⟩
      (commitVec params.gen1.generators [4] params.gen1.h (6 : F17)) [] = .ok (true, tr')) ↔ t' = t) ∧
    ∃! p : F17 × F17, ∃ tr', knowledgeProve three params.gen1 4 6 p.1 p.2 [] =
      .ok ((⟨t, z1, z2⟩, commitVec params.gen1.generators [4] params.gen1.h (6 : F17)), tr') :=
  C97_knowledge three three_oblivious params.gen1 4 6 [] z1 z2

example (z : F17) : ∃ t : F17, (∀ t' : F17, (∃ tr', eqVerify three params.gen1
      (commitVec params.gen1.generators [4] params.gen1.h (6 : F17))
      (commitVec params.gen1.generators [4] params.gen1.h (8 : F17)) ⟨t', z⟩ [] = .ok (true, tr')) ↔ t' = t) ∧
    ∃! r : F17, ∃ tr', eqProve three params.gen1 4 6 4 8 r [] = .ok (⟨t, z⟩, tr') :=
  C97_equality three three_oblivious params.gen1 4 6 8 [] z

example (z1 z2 z3 z4 z5 : F17) := C97_product three three_oblivious params.gen1 2 3 4 5 6 [] z1 z2 z3 z4 z5

end Ex

end Zkp.Cp
