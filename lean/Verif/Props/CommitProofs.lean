/- Proofs about commitments: honest proofs verify, and two answers reveal the opening. -/
import Verif.Proof.CommitEval
import Verif.Proof.F17

namespace Zkp.Cp

open Zkp.Ml Zkp.Spartan

set_option linter.unusedSectionVars false
set_option linter.unusedSimpArgs false

variable {F : Type} [Field F] {G : Type} [AddCommGroup G] [Module F G] [DecidableEq F] [DecidableEq G]

theorem commitVec_one (g : List G) (x : F) (h : G) (b : F) :
    commitVec g [x] h b = x • g.headD 0 + b • h := by
  cases g <;> simp [commitVec]

/-! ### C57 -/

/-- C57: an equality proof for two commitments to the same value is accepted, and prover and verifier end
with the same transcript. -/
theorem C57_equality (ch : Oracle F G) (params : MultiParams G) (v blind1 blind2 r : F) (tr : Transcript F G) :
    ∃ proof tr', eqProve ch params v blind1 v blind2 r tr = .ok (proof, tr') ∧
      eqVerify ch params (commitVec params.generators [v] params.h blind1)
        (commitVec params.generators [v] params.h blind2) proof tr = .ok (true, tr') := by
  refine ⟨_, _, rfl, ?_⟩
  apply runs_eq
  unfold eqVerify
  refine Runs.say.bind fun _ _ e => ?_
  subst e
  refine Runs.say.bind fun _ _ e => ?_
  subst e
  refine Runs.say.bind fun _ _ e => ?_
  subst e
  refine Runs.challenge.bind fun c _ e => ?_
  obtain ⟨rfl, rfl⟩ := e
  refine Runs.pure ⟨?_, rfl⟩
  symm
  rw [decide_eq_true_eq, commitVec_one, commitVec_one]
  module

/-- C57: a proof of knowledge of an opening is accepted. -/
theorem C57_knowledge (ch : Oracle F G) (params : MultiParams G) (v blind t1 t2 : F) (tr : Transcript F G) :
    ∃ proof tr', knowledgeProve ch params v blind t1 t2 tr =
        .ok ((proof, commitVec params.generators [v] params.h blind), tr') ∧
      knowledgeVerify ch params proof (commitVec params.generators [v] params.h blind) tr = .ok (true, tr') := by
  refine ⟨_, _, rfl, ?_⟩
  apply runs_eq
  unfold knowledgeVerify
  refine Runs.say.bind fun _ _ e => ?_
  subst e
  refine Runs.say.bind fun _ _ e => ?_
  subst e
  refine Runs.challenge.bind fun c _ e => ?_
  obtain ⟨rfl, rfl⟩ := e
  refine Runs.pure ⟨?_, rfl⟩
  symm
  rw [decide_eq_true_eq, commitVec_one, commitVec_one, commitVec_one]
  module

/-- C57: a product proof for a true product is accepted. -/
theorem C57_product (ch : Oracle F G) (params : MultiParams G) (x blindX y blindY blindProd b1 b2 b3 b4 b5 : F)
    (tr : Transcript F G) :
    ∃ proof tr', productProve ch params x blindX y blindY (x * y) blindProd b1 b2 b3 b4 b5 tr =
        .ok ((proof, commitVec params.generators [x] params.h blindX, commitVec params.generators [y] params.h blindY,
          commitVec params.generators [x * y] params.h blindProd), tr') ∧
      productVerify ch params proof (commitVec params.generators [x] params.h blindX)
        (commitVec params.generators [y] params.h blindY)
        (commitVec params.generators [x * y] params.h blindProd) tr = .ok (true, tr') := by
  refine ⟨_, _, rfl, ?_⟩
  apply runs_eq
  unfold productVerify
  refine (Runs.orPanic rfl).bind fun _ _ e => ?_
  obtain ⟨rfl, rfl⟩ := e
  refine (Runs.orPanic rfl).bind fun _ _ e => ?_
  obtain ⟨rfl, rfl⟩ := e
  refine (Runs.orPanic rfl).bind fun _ _ e => ?_
  obtain ⟨rfl, rfl⟩ := e
  refine (Runs.orPanic rfl).bind fun _ _ e => ?_
  obtain ⟨rfl, rfl⟩ := e
  refine (Runs.orPanic rfl).bind fun _ _ e => ?_
  obtain ⟨rfl, rfl⟩ := e
  refine Runs.say.bind fun _ _ e => ?_
  subst e
  refine Runs.say.bind fun _ _ e => ?_
  subst e
  refine Runs.say.bind fun _ _ e => ?_
  subst e
  refine Runs.say.bind fun _ _ e => ?_
  subst e
  refine Runs.say.bind fun _ _ e => ?_
  subst e
  refine Runs.say.bind fun _ _ e => ?_
  subst e
  refine Runs.challenge.bind fun c _ e => ?_
  obtain ⟨rfl, rfl⟩ := e
  refine Runs.pure ⟨?_, rfl⟩
  symm
  simp only [Bool.and_eq_true, decide_eq_true_eq, commitVec_one, List.headD_cons]
  refine ⟨⟨?_, ?_⟩, ?_⟩ <;> module

/-- C57: whenever the prover of the logarithmic dot-product proof finishes (it panics on a zero challenge),
the proof of a true statement is accepted. Both parameter sets share `h` (params.rs:77-81). -/
theorem C57_log_dot (ch : Oracle F G) (label : String) (params : PcParams G) (hh : params.genN.h = params.gen1.h)
    (x a : List F) (blindX blindY d rBeta rDelta : F) (blinds : List (F × F)) (proof : DotProof F G) (cx cy : G)
    (tr tr' : Transcript F G)
    (hp : logDotProve ch label params x blindX a (dot x a) blindY d rBeta rDelta blinds tr =
      .ok ((proof, cx, cy), tr')) :
    cx = commitVec params.genN.generators x params.genN.h blindX ∧
    cy = commitVec params.gen1.generators [dot x a] params.gen1.h blindY ∧
    logDotVerify ch label params cx cy a proof tr = .ok (true, tr') := by
  unfold logDotProve at hp
  obtain ⟨_, _, h1, hp⟩ := bind_inv hp
  obtain rfl := say_inv h1
  obtain ⟨_, _, h1, hp⟩ := bind_inv hp
  obtain rfl := say_inv h1
  obtain ⟨q, _, h1, hp⟩ := bind_inv hp
  obtain ⟨hq, rfl⟩ := orPanic_inv h1
  obtain ⟨p, tr1, hb, hp⟩ := bind_inv hp
  obtain ⟨_, _, h1, hp⟩ := bind_inv hp
  obtain rfl := say_inv h1
  obtain ⟨_, _, h1, hp⟩ := bind_inv hp
  obtain rfl := say_inv h1
  obtain ⟨c, _, h1, hp⟩ := bind_inv hp
  obtain ⟨hc, rfl⟩ := challenge_inv h1
  obtain ⟨he, rfl⟩ := pure_inv hp
  obtain ⟨rfl, rfl, rfl⟩ : _ ∧ _ ∧ _ := by simpa only [Prod.mk.injEq] using he
  refine ⟨rfl, rfl, ?_⟩
  unfold bulletProve at hb
  obtain ⟨_, _, h1, hb⟩ := bind_inv hb
  obtain ⟨hpow, rfl⟩ := ensure_inv h1
  obtain ⟨_, _, h1, hb⟩ := bind_inv hb
  obtain ⟨hlen, rfl⟩ := ensure_inv h1
  have hpow : x.length = 2 ^ Nat.log2 x.length := by simpa [isPow2] using hpow
  have hlen : x.length = a.length := by simpa using hlen
  obtain ⟨hgl, l1, l2, xs, hch, hl, hne, hbs, hgs, hE⟩ :=
    bulletLoop_ok ch q params.gen1.h _ _ _ _ _ _ _ _ _ hpow (hlen ▸ hpow) hb
  have hq' : params.gen1.generators.headD 0 = q := by
    cases hg : params.gen1.generators with
    | nil => rw [hg] at hq; simp at hq
    | cons g gs => rw [hg] at hq; simpa using hq
  apply runs_eq
  unfold logDotVerify
  refine Runs.say.bind fun _ _ e => ?_
  subst e
  refine Runs.say.bind fun _ _ e => ?_
  subst e
  have hs : bulletS xs = Bp.sRec xs := Bp.ippS_eq xs hne
  have hv : bulletVerify ch params.genN.generators p.L p.R
      (commitVec params.genN.generators x params.genN.h blindX +
        commitVec params.gen1.generators [dot x a] params.gen1.h blindY) a
      (tr ++ [.pt "Cx" (commitVec params.genN.generators x params.genN.h blindX)] ++
        [.pt "Cy" (commitVec params.gen1.generators [dot x a] params.gen1.h blindY)]) =
      .ok ((p.b, p.g, p.a • p.g + (p.a * p.b) • q + p.blind • params.gen1.h), tr1) := by
    apply runs_eq
    unfold bulletVerify
    refine (Runs.ensure (by simp [l1, l2])).bind fun _ _ e => ?_
    subst e
    refine (runs_of hch).bind fun _ _ e => ?_
    obtain ⟨rfl, rfl⟩ := e
    refine (Runs.ensure ?_).bind fun _ _ e => ?_
    · rw [decide_eq_true_eq, l1, ← hpow, hlen]
    subst e
    refine (Runs.ensure ?_).bind fun _ _ e => ?_
    · rw [decide_eq_true_eq, l1]; exact hgl
    subst e
    refine Runs.pure ⟨?_, rfl⟩
    rw [hs]
    have ha : a.take (Bp.sRec xs).length = a := by
      rw [List.take_of_length_le]; rw [Bp.sRec_length, hl, ← hpow, hlen]
    rw [ha, msm_take]
    refine Prod.ext hbs.symm (Prod.ext hgs.symm ?_)
    show _ = _
    simp only
    rw [hE, hh, commitVec_one]
    rw [hq', commitVec]
    module
  refine (runs_of hv).bind fun _ _ e => ?_
  obtain ⟨rfl, rfl⟩ := e
  refine Runs.say.bind fun _ _ e => ?_
  subst e
  refine Runs.say.bind fun _ _ e => ?_
  subst e
  refine Runs.challenge.bind fun c' _ e => ?_
  obtain ⟨hc', rfl⟩ := e
  obtain rfl : c' = c := hc'.trans hc
  refine (Runs.orPanic hq).bind fun _ _ e => ?_
  obtain ⟨rfl, rfl⟩ := e
  refine Runs.pure ⟨?_, rfl⟩
  symm
  simp only [decide_eq_true_eq, commitVec_one, hq', List.headD_cons]
  module

/-- C57: the prover of the logarithmic dot-product proof finishes if no challenge `x` is zero, for vectors
of power-of-two length that the parameters cover. -/
theorem C57_log_dot_finishes (ch : Oracle F G) (hch : ∀ t, ch (t ++ [.chal "x"]) ≠ 0) (label : String)
    (params : PcParams G) (h1 : params.gen1.generators ≠ []) (x a : List F) (k : Nat) (hx : x.length = 2 ^ k)
    (ha : a.length = 2 ^ k) (hg : 2 ^ k ≤ params.genN.generators.length) (y blindX blindY d rBeta rDelta : F)
    (blinds : List (F × F)) (hb : k ≤ blinds.length) (tr : Transcript F G) :
    ∃ proof cx cy tr', logDotProve ch label params x blindX a y blindY d rBeta rDelta blinds tr =
      .ok ((proof, cx, cy), tr') := by
  suffices h : Runs (logDotProve ch label params x blindX a y blindY d rBeta rDelta blinds) tr
      (fun _ _ => True) by
    obtain ⟨⟨p, cx, cy⟩, tr', h, -⟩ := h; exact ⟨p, cx, cy, tr', h⟩
  obtain ⟨g, gs, hgs⟩ := List.exists_cons_of_ne_nil h1
  have hlog : Nat.log2 x.length = k := by rw [hx, Nat.log2_two_pow]
  unfold logDotProve bulletProve
  refine Runs.say.bind fun _ _ _ => Runs.say.bind fun _ _ _ => (Runs.orPanic (a := g) (by rw [hgs]; rfl)).bind
    fun q _ _ => Runs.bind (P := fun _ _ => True) ?_ fun p _ _ => Runs.say.bind fun _ _ _ =>
    Runs.say.bind fun _ _ _ => Runs.challenge.bind fun _ _ _ => Runs.pure trivial
  refine (Runs.ensure ?_).bind fun _ _ _ => (Runs.ensure (by rw [hx, ha]; simp)).bind fun _ _ _ => ?_
  · simp [isPow2, hx, Nat.log2_two_pow]
  · rw [hlog]
    exact bulletLoop_some ch hch q _ k _ _ _ _ _ _ hx ha hg hb

/-! ### The dot-product proof that is not used by the protocols -/

/-- C57, full statement for `DotProductProof`: honest proofs of true statements are accepted. -/
def C57_dot_statement (F G : Type) [Field F] [AddCommGroup G] [Module F G] [DecidableEq F] [DecidableEq G] : Prop :=
  ∀ (ch : Oracle F G) (params : PcParams G), params.genN.h = params.gen1.h →
    ∀ (x a d : List F) (blindX blindY rBeta rDelta : F), a.length = x.length → d.length = x.length →
      x.length ≤ params.n → x.length ≤ params.genN.generators.length → ∀ tr proof cx cy tr',
      linDotProve ch params x blindX a (dot x a) blindY d rBeta rDelta tr = .ok ((proof, cx, cy), tr') →
      ∃ tr'', linDotVerify ch params cx cy a proof tr = .ok (true, tr'')

namespace Ex

/-- Parameters over the group `ZMod 17`: two generators, and a third for the value. -/
def params : PcParams F17 := ⟨2, ⟨2, [3, 5], 7⟩, ⟨1, [2], 7⟩⟩

/-- A challenge that depends on what is hashed as the third message. -/
def third : Oracle F17 F17 := fun tr =>
  match tr[2]? with
  | some (Msg.pt _ p) => if p = 0 then 1 else 2
  | _ => 2

/-- Constant challenges. -/
def three : Oracle F17 F17 := fun _ => 3

def four : Oracle F17 F17 := fun _ => 4

/-- A challenge that depends on the length of the transcript and is never zero. -/
def ch : Oracle F17 F17 := fun t => if t.length % 2 = 0 then 3 else 5

theorem ch_ne (t : Transcript F17 F17) : ch t ≠ 0 := by
  unfold ch; split <;> decide

end Ex

/-- C57 is violated by `DotProductProof`: the terms are multiplied instead of added. Here the challenge is
always one, so that prover and verifier agree on it, and every random value is zero; the statement is
`1·1 + 1·1 = 2`. -/
theorem C57_violated : ¬ C57_dot_statement F17 F17 := by
  intro h
  obtain ⟨_, h⟩ := h (fun _ => 1) Ex.params rfl [1, 1] [1, 1] [0, 0] 0 0 0 0 rfl rfl (by decide) (by decide) [] _ _ _ _ rfl
  have h1 := (Prod.mk.inj (Except.ok.inj h)).1
  exact absurd h1 (by decide)

/-- C57 is violated by `DotProductProof` for a single entry too, where product and sum agree: the prover
hashes `comm_x`, `comm_y` where the verifier hashes `delta`, `beta`, so that they use different challenges. -/
theorem C57_violated_transcript : ∃ (proof : LinDotProof F17 F17) (cx cy : F17) (tr' : Transcript F17 F17),
    linDotProve Ex.third Ex.params [1] 0 [1] (dot [1] [1]) 0 [0] 0 0 [] = .ok ((proof, cx, cy), tr') ∧
    ∃ tr'', linDotVerify Ex.third Ex.params cx cy [1] proof [] = .ok (false, tr'') :=
  ⟨_, _, _, _, rfl, _, rfl⟩

/-- What holds of `DotProductProof`: for a single entry, if both sides get the same challenge, the proof of
a true statement is accepted. Missing from C57: longer vectors and hash functions that see the transcript. -/
theorem C57_dot_partial (ch : Oracle F G) (params : PcParams G) (hh : params.genN.h = params.gen1.h)
    (x a d blindX blindY rBeta rDelta c : F) (hn : 1 ≤ params.n) (hch : ∀ t, ch t = c) (tr : Transcript F G) :
    ∃ proof cx cy tr' tr'', linDotProve ch params [x] blindX [a] (dot [x] [a]) blindY [d] rBeta rDelta tr =
        .ok ((proof, cx, cy), tr') ∧ linDotVerify ch params cx cy [a] proof tr = .ok (true, tr'') := by
  have h : Runs (linDotProve ch params [x] blindX [a] (dot [x] [a]) blindY [d] rBeta rDelta) tr (fun p _ =>
      p = (⟨[c * x + d], commitVec params.genN.generators [d] params.genN.h rDelta,
        commitVec params.gen1.generators [a * d] params.gen1.h rBeta, c * blindX + rDelta, c * blindY + rBeta⟩,
        commitVec params.genN.generators [x] params.genN.h blindX,
        commitVec params.gen1.generators [dot [x] [a]] params.gen1.h blindY)) := by
    unfold linDotProve
    refine (Runs.ensure rfl).bind fun _ _ _ => (Runs.ensure (by simpa using hn)).bind fun _ _ _ =>
      Runs.say.bind fun _ _ _ => Runs.say.bind fun _ _ _ => Runs.say.bind fun _ _ _ => Runs.say.bind fun _ _ _ =>
      Runs.challenge.bind fun c' _ e => Runs.pure ?_
    rw [hch] at e
    rw [e.1]
    simp
  obtain ⟨p, tr', h, rfl⟩ := h
  have h' : Runs (linDotVerify ch params (commitVec params.genN.generators [x] params.genN.h blindX)
      (commitVec params.gen1.generators [dot [x] [a]] params.gen1.h blindY) [a]
      ⟨[c * x + d], commitVec params.genN.generators [d] params.genN.h rDelta,
        commitVec params.gen1.generators [a * d] params.gen1.h rBeta, c * blindX + rDelta, c * blindY + rBeta⟩) tr
      (fun b _ => b = true) := by
    unfold linDotVerify
    refine Runs.say.bind fun _ _ _ => Runs.say.bind fun _ _ _ => Runs.say.bind fun _ _ _ => Runs.say.bind fun _ _ _ =>
      Runs.challenge.bind fun c' _ e => (Runs.ensure rfl).bind fun _ _ _ => Runs.pure ?_
    rw [hch] at e
    rw [e.1]
    simp only [Bool.and_eq_true, decide_eq_true_eq, commitVec_one, hh, dot_cons, dot_nil_left]
    refine ⟨by module, ?_⟩
    simp
    module
  obtain ⟨b, tr'', h', rfl⟩ := h'
  exact ⟨_, _, _, _, _, h, h'⟩

/-! ### Evaluation proofs of committed tables -/

theorem combineRows_inv {poly blindPoly ry lz re : List F} {lzBlind : F} {tr tr' : Transcript F G}
    (h : combineRows poly blindPoly ry tr = .ok ((lz, lzBlind, re), tr')) (hb : blindPoly ≠ []) :
    tr' = tr ∧ ∃ r1 r2, ry = r1 ++ r2 ∧ r1.length = ry.length / 2 ∧ re = evalEq r2 ∧
      ry.length = Nat.clog 2 poly.length ∧ 2 ^ r1.length = blindPoly.length ∧
      lz = (List.range (2 ^ r2.length)).map (fun j => ((List.range (2 ^ r1.length)).map fun i =>
        (evalEq r1).getD i 0 * poly.getD (i * 2 ^ r2.length + j) 0).sum) ∧
      lzBlind = ((List.range (2 ^ r1.length)).map fun i => (evalEq r1).getD i 0 * blindPoly.getD i 0).sum := by
  unfold combineRows at h
  obtain ⟨_, _, h1, h⟩ := bind_inv h
  obtain ⟨hl, rfl⟩ := ensure_inv h1
  obtain ⟨_, _, h1, h⟩ := bind_inv h
  obtain ⟨hbl, rfl⟩ := ensure_inv h1
  obtain ⟨_, _, h1, h⟩ := bind_inv h
  obtain ⟨-, rfl⟩ := ensure_inv h1
  obtain ⟨he, rfl⟩ := pure_inv h
  have hl : ry.length = Nat.clog 2 poly.length := by simpa using hl
  have hb0 : ¬ blindPoly.length = 0 := fun h => hb (List.length_eq_zero_iff.1 h)
  rw [← hl, if_neg hb0] at hbl he
  have hbl : 2 ^ (ry.length / 2) = blindPoly.length := by simpa using hbl
  simp only [Prod.mk.injEq] at he
  have e1 : (ry.take (ry.length / 2)).length = ry.length / 2 := by rw [List.length_take]; omega
  have e2 : (ry.drop (ry.length / 2)).length = ry.length - ry.length / 2 := by rw [List.length_drop]
  refine ⟨rfl, ry.take (ry.length / 2), ry.drop (ry.length / 2), (List.take_append_drop _ _).symm, e1,
    he.2.2.symm, hl, by rw [e1, hbl], ?_, ?_⟩
  · rw [e1, e2]; exact he.1.symm
  · rw [e1]; exact he.2.1.symm

/-- C57: an evaluation proof of a table committed row by row (Hyrax, Libra) is accepted for the value of the
table's multilinear extension, whenever the prover finishes. -/
theorem C57_evaluation (ch : Oracle F G) (params : PcParams G) (hh : params.genN.h = params.gen1.h)
    (poly blindPoly ry : List F) (hb : blindPoly ≠ []) (comms : List G) (tr0 tr0' : Transcript F G)
    (hc : packCommit params.genN.generators params.genN.h poly blindPoly tr0 = .ok (comms, tr0'))
    (ryBlind d rBeta rDelta : F) (blinds : List (F × F)) (proof : DotProof F G) (cy : G) (tr tr' : Transcript F G)
    (hp : evalProve ch params poly blindPoly ry ryBlind (mle poly ry) d rBeta rDelta blinds tr =
      .ok ((proof, cy), tr')) :
    cy = commitVec params.gen1.generators [mle poly ry] params.gen1.h ryBlind ∧
      evalVerify ch params ry comms cy proof tr = .ok (true, tr') := by
  unfold packCommit at hc
  obtain ⟨_, _, h1, hc⟩ := bind_inv hc
  obtain ⟨hl, rfl⟩ := ensure_inv h1
  obtain ⟨_, _, h1, hc⟩ := bind_inv hc
  obtain ⟨hbl, rfl⟩ := ensure_inv h1
  obtain ⟨rfl, rfl⟩ := pure_inv hc
  unfold evalProve at hp
  obtain ⟨⟨lz, lzBlind, re⟩, _, h1, hp⟩ := bind_inv hp
  obtain ⟨rfl, r1, r2, rfl, hr1, rfl, hlen, hr1b, rfl, rfl⟩ := combineRows_inv h1 hb
  obtain ⟨_, _, h2, hp⟩ := bind_inv hp
  unfold logDotAsserts at h2
  obtain ⟨_, _, h3, h2⟩ := bind_inv h2
  obtain ⟨-, rfl⟩ := ensure_inv h3
  obtain ⟨-, rfl⟩ := ensure_inv h2
  obtain ⟨⟨proof', cx, cy'⟩, _, hd, hp⟩ := bind_inv hp
  obtain ⟨he, rfl⟩ := pure_inv hp
  obtain ⟨rfl, rfl⟩ : _ ∧ _ := by simpa only [Prod.mk.injEq] using he
  rw [← dot_rows] at hd ⊢
  obtain ⟨hcx, hcy, hv⟩ := C57_log_dot ch "c" params hh _ _ _ _ _ _ _ _ _ _ _ _ _ hd
  refine ⟨hcy, ?_⟩
  unfold evalVerify
  have t1 : (r1 ++ r2).take ((r1 ++ r2).length / 2) = r1 := by rw [← hr1]; simp
  have t2 : (r1 ++ r2).drop ((r1 ++ r2).length / 2) = r2 := by rw [← hr1]; simp
  rw [t1, t2, ← hlen, ← hr1]
  have hlen3 : (r1 ++ r2).length - r1.length = r2.length := by simp
  rw [hlen3, ← hh, commit_rows, ← hcx]
  exact hv

/-- C57: the same for Spartan's `inner_product_proof` and `inner_product_verify`. -/
theorem C57_evaluation_spartan (ch : Oracle F G) (params : PcParams G) (hh : params.genN.h = params.gen1.h)
    (poly blindPoly ry : List F) (hb : blindPoly ≠ []) (comms : List G) (tr0 tr0' : Transcript F G)
    (hc : packCommit params.genN.generators params.genN.h poly blindPoly tr0 = .ok (comms, tr0'))
    (ryBlind d rBeta rDelta : F) (blinds : List (F × F)) (proof : DotProof F G) (cy : G) (tr tr' : Transcript F G)
    (hp : innerProductProve ch params poly blindPoly ry ryBlind (mle poly ry) d rDelta rBeta blinds tr =
      .ok ((proof, cy), tr')) :
    cy = commitVec params.gen1.generators [mle poly ry] params.gen1.h ryBlind ∧
      innerProductVerify ch params ry comms cy proof tr = .ok (true, tr') := by
  unfold packCommit at hc
  obtain ⟨_, _, h1, hc⟩ := bind_inv hc
  obtain ⟨hl, rfl⟩ := ensure_inv h1
  obtain ⟨_, _, h1, hc⟩ := bind_inv hc
  obtain ⟨hbl, rfl⟩ := ensure_inv h1
  obtain ⟨rfl, rfl⟩ := pure_inv hc
  unfold innerProductProve at hp
  obtain ⟨_, _, h1, hp⟩ := bind_inv hp
  obtain rfl := say_inv h1
  obtain ⟨⟨lz, lzBlind, re⟩, _, h1, hp⟩ := bind_inv hp
  obtain ⟨rfl, r1, r2, rfl, hr1, rfl, hlen, hr1b, rfl, rfl⟩ := combineRows_inv h1 hb
  obtain ⟨⟨proof', cx, cy'⟩, _, hd, hp⟩ := bind_inv hp
  obtain ⟨he, rfl⟩ := pure_inv hp
  obtain ⟨rfl, rfl⟩ : _ ∧ _ := by simpa only [Prod.mk.injEq] using he
  rw [← dot_rows] at hd ⊢
  obtain ⟨hcx, hcy, hv⟩ := C57_log_dot ch "challenge_tau" params hh _ _ _ _ _ _ _ _ _ _ _ _ _ hd
  refine ⟨hcy, ?_⟩
  have t1 : (r1 ++ r2).take ((r1 ++ r2).length / 2) = r1 := by rw [← hr1]; simp
  have t2 : (r1 ++ r2).drop ((r1 ++ r2).length / 2) = r2 := by rw [← hr1]; simp
  have hlen3 : (r1 ++ r2).length - r1.length = r2.length := by simp
  apply runs_eq
  unfold innerProductVerify
  refine Runs.say.bind fun _ _ e => ?_
  subst e
  simp only
  rw [t1, t2, ← hlen, ← hr1, hlen3, ← hh, commit_rows, ← hcx]
  unfold logDotVerify at hv
  rw [← hh] at hv
  exact runs_of hv

namespace Ex

/-- The hypotheses can be met: a table of four entries, two of them in each row. -/
example : ∃ comms proof cy tr', packCommit params.genN.generators params.genN.h [1, 2, 3, 4] [5, (6 : F17)] [] =
      .ok (comms, []) ∧
    evalProve ch params [1, 2, 3, 4] [5, 6] [7, 8] 9 (mle [1, 2, 3, 4] [7, (8 : F17)]) 10 11 12 [(13, 14)] [] =
      .ok ((proof, cy), tr') ∧
    evalVerify ch params [7, 8] comms cy proof [] = .ok (true, tr') :=
  ⟨_, _, _, _, rfl, rfl, (C57_evaluation ch params rfl [1, 2, 3, 4] [5, 6] [7, 8] (by simp) _ [] [] rfl 9 10 11 12 [(13, 14)] _ _ [] _ rfl).2⟩

example : ∃ proof cy tr',
    innerProductProve ch params [1, 2, 3, 4] [5, 6] [7, 8] 9 (mle [1, 2, 3, 4] [7, (8 : F17)]) 10 11 12 [(13, 14)] [] =
      .ok ((proof, cy), tr') := ⟨_, _, _, rfl⟩

example : ∃ proof cx cy tr', logDotProve ch "c" params [1, (2 : F17)] 3 [4, 5] (dot [1, 2] [4, (5 : F17)]) 6 7 8 9 [(10, 11)] [] =
    .ok ((proof, cx, cy), tr') :=
  C57_log_dot_finishes ch (fun t => ch_ne _) "c" params (by decide) [1, 2] [4, 5] 1 rfl rfl (by decide) _ _ _ _ _ _ _
    (by simp) []

example : ∃ proof cx cy tr' tr'', linDotProve three params [2] 4 [5] (dot [2] [5]) 6 [7] 8 9 [] =
    .ok ((proof, cx, cy), tr') ∧ linDotVerify three params cx cy [5] proof [] = .ok (true, tr'') :=
  C57_dot_partial three params rfl 2 5 7 4 6 8 9 3 (by decide) (fun _ => rfl) []

end Ex

/-! ### C58 -/

/-- The witness computed from two answers. -/
def extract (c c' z z' : F) : F := (z - z') / (c - c')

theorem extract_smul {g : G} {c c' z z' : F} {x : F} (h : c ≠ c') (hx : x * (c - c') = z - z') :
    extract c c' z z' • g = x • g := by
  rw [extract, ← hx, mul_div_cancel_right₀ _ (sub_ne_zero.2 h)]

theorem cancel {X : G} {c c' : F} (h : c ≠ c') (Y : G) (e : (c - c') • X = (c - c') • Y) : X = Y := by
  have h0 := sub_ne_zero.2 h
  have := congrArg (fun x => (c - c')⁻¹ • x) e
  simpa [smul_smul, inv_mul_cancel₀ h0] using this

theorem extract_cancel {c c' z z' : F} (h : c ≠ c') : (c - c') * extract c c' z z' = z - z' := by
  rw [extract, mul_div_cancel₀ _ (sub_ne_zero.2 h)]

/-- C58: two accepting answers of the knowledge proof to different challenges, with the same first message,
reveal an opening of the commitment. The two runs may use any hash functions and transcripts; `c` and `c'`
are the challenges they see. -/
theorem C58_knowledge (ch ch' : Oracle F G) (params : MultiParams G) (commit t : G) (z1 z2 z1' z2' : F)
    (tr tr' e e' : Transcript F G)
    (h : knowledgeVerify ch params ⟨t, z1, z2⟩ commit tr = .ok (true, e))
    (h' : knowledgeVerify ch' params ⟨t, z1', z2'⟩ commit tr' = .ok (true, e'))
    (hc : ch e ≠ ch' e') :
    commit = commitVec params.generators [extract (ch e) (ch' e') z1 z1'] params.h
      (extract (ch e) (ch' e') z2 z2') := by
  have key : ∀ (ch : Oracle F G) (z1 z2 : F) (tr e : Transcript F G),
      knowledgeVerify ch params ⟨t, z1, z2⟩ commit tr = .ok (true, e) →
      commitVec params.generators [z1] params.h z2 = ch e • commit + t := by
    intro ch z1 z2 tr e h
    unfold knowledgeVerify at h
    obtain ⟨_, _, _, h⟩ := bind_inv h
    obtain ⟨_, _, _, h⟩ := bind_inv h
    obtain ⟨c, _, h1, h⟩ := bind_inv h
    obtain ⟨hc, rfl⟩ := challenge_inv h1
    obtain ⟨hd, rfl⟩ := pure_inv h
    rw [hc]
    exact of_decide_eq_true hd
  have k1 := key _ _ _ _ _ h
  have k2 := key _ _ _ _ _ h'
  apply cancel hc
  rw [commitVec_one, smul_add, smul_smul, smul_smul, extract_cancel hc, extract_cancel hc]
  rw [commitVec_one] at k1 k2
  have : (ch e - ch' e') • commit = (ch e • commit + t) - (ch' e' • commit + t) := by module
  rw [this, ← k1, ← k2]
  module

/-- C58: two accepting answers of the equality proof show that the commitments differ by a known multiple of
`h`. -/
theorem C58_equality (ch ch' : Oracle F G) (params : MultiParams G) (c1 c2 alpha : G) (z z' : F)
    (tr tr' e e' : Transcript F G)
    (h : eqVerify ch params c1 c2 ⟨alpha, z⟩ tr = .ok (true, e))
    (h' : eqVerify ch' params c1 c2 ⟨alpha, z'⟩ tr' = .ok (true, e')) (hc : ch e ≠ ch' e') :
    c1 - c2 = extract (ch e) (ch' e') z z' • params.h := by
  have key : ∀ (ch : Oracle F G) (z : F) (tr e : Transcript F G),
      eqVerify ch params c1 c2 ⟨alpha, z⟩ tr = .ok (true, e) → z • params.h = ch e • (c1 - c2) + alpha := by
    intro ch z tr e h
    unfold eqVerify at h
    obtain ⟨_, _, _, h⟩ := bind_inv h
    obtain ⟨_, _, _, h⟩ := bind_inv h
    obtain ⟨_, _, _, h⟩ := bind_inv h
    obtain ⟨c, _, h1, h⟩ := bind_inv h
    obtain ⟨hc, rfl⟩ := challenge_inv h1
    obtain ⟨hd, rfl⟩ := pure_inv h
    rw [hc]
    exact of_decide_eq_true hd
  have k1 := key _ _ _ _ h
  have k2 := key _ _ _ _ h'
  apply cancel hc
  rw [smul_smul, extract_cancel hc]
  have : (ch e - ch' e') • (c1 - c2) = (ch e • (c1 - c2) + alpha) - (ch' e' • (c1 - c2) + alpha) := by module
  rw [this, ← k1, ← k2]
  module

/-- C58: hence, if the first is a commitment to `v`, so is the second. -/
theorem C58_equality_value (params : MultiParams G) (c1 c2 : G) (b v r : F) (h : c1 - c2 = b • params.h)
    (h1 : c1 = commitVec params.generators [v] params.h r) :
    c2 = commitVec params.generators [v] params.h (r - b) := by
  rw [commitVec_one] at h1 ⊢
  have : c2 = c1 - (c1 - c2) := by abel
  rw [this, h, h1]
  module

/-- C58: two accepting answers of the product proof reveal openings of the three commitments, and the third
value is the product of the other two. -/
theorem C58_product (ch ch' : Oracle F G) (params : MultiParams G) (X Y Z alpha beta delta : G) (z z' : List F)
    (tr tr' e e' : Transcript F G)
    (h : productVerify ch params ⟨alpha, beta, delta, z⟩ X Y Z tr = .ok (true, e))
    (h' : productVerify ch' params ⟨alpha, beta, delta, z'⟩ X Y Z tr' = .ok (true, e')) (hc : ch e ≠ ch' e') :
    let ext := fun i => extract (ch e) (ch' e') (z.getD i 0) (z'.getD i 0)
    X = commitVec params.generators [ext 0] params.h (ext 1) ∧
    Y = commitVec params.generators [ext 2] params.h (ext 3) ∧
    Z = commitVec params.generators [ext 0 * ext 2] params.h (ext 1 * ext 2 + ext 4) := by
  have key : ∀ (ch : Oracle F G) (z : List F) (tr e : Transcript F G),
      productVerify ch params ⟨alpha, beta, delta, z⟩ X Y Z tr = .ok (true, e) →
      alpha + ch e • X = commitVec params.generators [z.getD 0 0] params.h (z.getD 1 0) ∧
      beta + ch e • Y = commitVec params.generators [z.getD 2 0] params.h (z.getD 3 0) ∧
      delta + ch e • Z = commitVec [X] [z.getD 2 0] params.h (z.getD 4 0) := by
    intro ch z tr e h
    unfold productVerify at h
    obtain ⟨z1, _, h1, h⟩ := bind_inv h
    have e1 := (orPanic_inv h1).1
    obtain ⟨z2, _, h1, h⟩ := bind_inv h
    have e2 := (orPanic_inv h1).1
    obtain ⟨z3, _, h1, h⟩ := bind_inv h
    have e3 := (orPanic_inv h1).1
    obtain ⟨z4, _, h1, h⟩ := bind_inv h
    have e4 := (orPanic_inv h1).1
    obtain ⟨z5, _, h1, h⟩ := bind_inv h
    have e5 := (orPanic_inv h1).1
    simp only at e1 e2 e3 e4 e5
    obtain ⟨_, _, _, h⟩ := bind_inv h
    obtain ⟨_, _, _, h⟩ := bind_inv h
    obtain ⟨_, _, _, h⟩ := bind_inv h
    obtain ⟨_, _, _, h⟩ := bind_inv h
    obtain ⟨_, _, _, h⟩ := bind_inv h
    obtain ⟨_, _, _, h⟩ := bind_inv h
    obtain ⟨c, _, h1, h⟩ := bind_inv h
    obtain ⟨hc, rfl⟩ := challenge_inv h1
    obtain ⟨hd, rfl⟩ := pure_inv h
    rw [Bool.and_eq_true, Bool.and_eq_true, decide_eq_true_eq, decide_eq_true_eq, decide_eq_true_eq] at hd
    simp only [List.getD_eq_getElem?_getD, e1, e2, e3, e4, e5, Option.getD_some, hc]
    exact ⟨hd.1.1, hd.1.2, hd.2⟩
  intro ext
  have hext : ∀ i, (ch e - ch' e') * ext i = z.getD i 0 - z'.getD i 0 := fun i => extract_cancel hc
  obtain ⟨k1, k2, k3⟩ := key _ _ _ _ h
  obtain ⟨k1', k2', k3'⟩ := key _ _ _ _ h'
  have step : ∀ A W : G, (ch e - ch' e') • W = (A + ch e • W) - (A + ch' e' • W) := fun A W => by module
  have hX : X = commitVec params.generators [ext 0] params.h (ext 1) := by
    apply cancel hc
    rw [step alpha, k1, k1', commitVec_one, commitVec_one, commitVec_one, smul_add, smul_smul, smul_smul, hext, hext]
    module
  refine ⟨hX, ?_, ?_⟩
  · apply cancel hc
    rw [step beta, k2, k2', commitVec_one, commitVec_one, commitVec_one, smul_add, smul_smul, smul_smul, hext, hext]
    module
  · have hZ : Z = ext 2 • X + ext 4 • params.h := by
      apply cancel hc
      rw [step delta, k3, k3', commitVec_one, commitVec_one, smul_add, smul_smul, smul_smul, hext, hext,
        List.headD_cons]
      module
    rw [hZ]
    conv_lhs => rw [hX]
    rw [commitVec_one, commitVec_one]
    module

namespace Ex

/-- Two accepting answers exist: the honest prover, run against two different challenges. -/
example : ∃ proof proof' commit e e', proof.t = proof'.t ∧
    knowledgeVerify three params.gen1 proof commit [] = .ok (true, e) ∧
    knowledgeVerify four params.gen1 proof' commit [] = .ok (true, e') := by
  obtain ⟨p, _, h1, h2⟩ := C57_knowledge three params.gen1 5 6 7 8 []
  obtain ⟨p', _, h1', h2'⟩ := C57_knowledge four params.gen1 5 6 7 8 []
  refine ⟨p, p', _, _, _, ?_, h2, h2'⟩
  cases h1; cases h1'; rfl

example : ∃ proof proof' c1 c2 e e', proof.alpha = proof'.alpha ∧
    eqVerify three params.gen1 c1 c2 proof [] = .ok (true, e) ∧
    eqVerify four params.gen1 c1 c2 proof' [] = .ok (true, e') := by
  obtain ⟨p, _, h1, h2⟩ := C57_equality three params.gen1 5 6 7 8 []
  obtain ⟨p', _, h1', h2'⟩ := C57_equality four params.gen1 5 6 7 8 []
  refine ⟨p, p', _, _, _, _, ?_, h2, h2'⟩
  cases h1; cases h1'; rfl

example : ∃ proof proof' X Y Z e e', proof.alpha = proof'.alpha ∧ proof.beta = proof'.beta ∧
    proof.delta = proof'.delta ∧
    productVerify three params.gen1 proof X Y Z [] = .ok (true, e) ∧
    productVerify four params.gen1 proof' X Y Z [] = .ok (true, e') := by
  obtain ⟨p, _, h1, h2⟩ := C57_product three params.gen1 5 6 7 8 9 10 11 12 13 14 []
  obtain ⟨p', _, h1', h2'⟩ := C57_product four params.gen1 5 6 7 8 9 10 11 12 13 14 []
  refine ⟨p, p', _, _, _, _, _, ?_, ?_, ?_, h2, h2'⟩ <;> cases h1 <;> cases h1' <;> rfl

end Ex

end Zkp.Cp
