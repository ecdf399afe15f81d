/- C88: soundness of Libra's GKR verifier with hiding. -/
import Verif.Proof.LibraZkSound
import Verif.Props.LibraZk

namespace Zkp.Lz

open Zkp.Ml Zkp.Spartan Zkp.Sc Zkp.Gkr Zkp.Hx
open Zkp.Cp (packCommit bind_inv say_inv challenge_inv ensure_inv orPanic_inv pure_inv)

set_option linter.unusedSectionVars false
set_option linter.unusedSimpArgs false

variable {F : Type} [Field F] {G : Type} [AddCommGroup G] [Module F G] [DecidableEq F] [DecidableEq G]

/-- The generators have no linear relation; the generator for scalars and the one for blinding are shared, as
`paramsNew` does it. -/
structure GoodZk (F : Type) [Field F] [Module F G] (params : Params G) : Prop where
  shared : params.pc.gen1 = params.gen1
  blind : params.pc.genN.h = params.gen1.h
  one : params.gen1.generators.length = 1
  three : params.gen3.generators.length = 3
  indep : Independent F (params.gen1.h :: (params.gen1.generators ++ params.pc.genN.generators))
  indep3 : Independent F (params.gen3.h :: params.gen3.generators)

/-- What is read from a commitment to a table is the table. -/
theorem wit_pack {u : G} {gs : List G} {h : G} {φ : Nat → G →ₗ[F] F} (hφ : Reads (u :: gs) h φ) (m : Nat) (w blinds : List F)
    (hw : w.length = 2 ^ m) (hg : 2 ^ (m - m / 2) ≤ gs.length) (com : List G) (t t' : Transcript F G)
    (hp : packCommit gs h w blinds t = .ok (com, t')) : wit φ m com = w := by
  unfold packCommit at hp
  simp only [hw, Nat.clog_pow 2 m (by decide : 1 < 2)] at hp
  obtain ⟨_, _, h1, hp⟩ := bind_inv hp
  obtain ⟨_, rfl⟩ := ensure_inv h1
  obtain ⟨_, _, h1, hp⟩ := bind_inv hp
  obtain ⟨_, rfl⟩ := ensure_inv h1
  obtain ⟨rfl, rfl⟩ := pure_inv hp
  have hpos : 0 < 2 ^ (m - m / 2) := by positivity
  have hmul : 2 ^ (m / 2) * 2 ^ (m - m / 2) = 2 ^ m := by rw [← pow_add]; congr 1; omega
  have hz : ∀ (z : List F) (s : F), commitVec gs z h s = commitVec (u :: gs) (0 :: z) h s := by
    intro z s
    simp [commitVec, msm_cons]
  apply List.ext_getElem
  · rw [wit_length, hw]
  intro n h1 h2
  rw [wit_length] at h1
  obtain ⟨r, hr⟩ : ∃ r, r = 2 ^ (m - m / 2) := ⟨_, rfl⟩
  rw [← hr] at hpos hmul hg
  have hdiv : n / r < 2 ^ (m / 2) := Nat.div_lt_of_lt_mul (by rw [mul_comm, hmul]; exact h1)
  have hmod : n % r < r := Nat.mod_lt _ hpos
  simp only [wit, List.getElem_map, List.getElem_range, ← hr]
  have hrow : ∀ f : Nat → G, ((List.range (2 ^ (m / 2))).map f).getD (n / r) 0 = f (n / r) := by
    intro f
    rw [List.getD_eq_getElem _ _ (by simpa using hdiv)]
    simp
  rw [hrow, hz, hφ.commit _ _ _ (by simp; omega), hφ.commit _ _ _ (by simp)]
  simp only [List.getD_cons_succ, List.getD_cons_zero, sub_zero]
  have e : n / r * r + n % r = n := by rw [mul_comm]; exact Nat.div_add_mod n r
  rw [List.getD_eq_getElem?_getD, List.getElem?_take, if_pos hmod, List.getElem?_drop, e, List.getElem?_eq_getElem h2]
  rfl

/-- The bad challenges of a run of the verifier, given the values of the input layer. -/
noncomputable def badRun (φ φ3 : Nat → G →ₗ[F] F) (S : Submodule F G) (raw : List (List (Nat × Nat × Nat))) (bits nb : Nat)
    (outputs v0 : List F) (k0 k1 : Nat) : List G → List F → Finset F :=
  after nb 0 (fun _ vs => badOut ((List.range (2 ^ nb)).map fun i => outputs.getD i 0 - (paddedTop v0 raw).getD i 0) vs) fun _ gu =>
  badZk φ φ3 S (fun ru rv => after (k0 + 2) (2 * k0 + 7) (badInput φ k0 ru) fun _ _ => badInput φ k1 rv)
    (paddedUp v0 bits raw).reverse gu gu 1 0

theorem badRun_card (φ φ3 : Nat → G →ₗ[F] F) (S : Submodule F G) (raw : List (List (Nat × Nat × Nat))) (bits nb : Nat)
    (outputs v0 : List F) (k0 k1 : Nat) (ps : List G) (vs : List F) :
    (badRun φ φ3 S raw bits nb outputs v0 k0 k1 ps vs).card ≤ 6 :=
  after_card (fun _ _ => (fewRoots_card 1 _).trans (by omega)) (fun _ _ => badZk_card φ φ3 S _
    (fun _ _ => after_card (badInput_card φ _ _) fun _ _ => badInput_card φ _ _) _ _ _ _ _) _ _

/-- The values of the input layer: the witness and, filled up with zeros, the public inputs. -/
def inputTable (k : Nat) (w inputs : List F) : List F := w ++ (inputs ++ List.replicate (2 ^ k - inputs.length) 0)

/-- The number of challenges: one for each bit of the index of an output, for each layer eight for each bit of the index of
a value below and two more, two between layers, and for the input layer those of the two proofs, which have `k0` and `k1`
rounds. -/
def numChallenges (c : Circuit) (k0 k1 : Nat) : Nat :=
  (c.layers.getLastD ⟨0, 0, []⟩).bitSize + (c.layers.dropLast.map fun l => 8 * l.bitSize + 2).sum + 2 * (c.layers.length - 2) +
    (k0 + 2) + (k1 + 2)

theorem paddedUp_parts (raw : List (List (Nat × Nat × Nat))) (v w : List F) (n : Nat) :
    (paddedUp v n raw).map (fun x => (x.1, x.2.2)) = (upward w n raw).map fun x => (x.1, x.2.2) := by
  induction raw generalizing v w n with
  | nil => rfl
  | cons l ls ih => simp only [paddedUp, upward, List.map_cons]; rw [ih]

theorem sum_sizes (raw : List (List (Nat × Nat × Nat))) (v : List F) (l0 : Layer) :
    ((paddedUp v l0.bitSize raw).map fun x => 8 * x.2.2 + 4).sum =
      ((l0 :: layersOf raw).dropLast.map fun l => 8 * l.bitSize + 2).sum + 2 * raw.length := by
  induction raw generalizing v l0 with
  | nil => rfl
  | cons l ls ih =>
    have := ih (padLayer l v) ⟨l.length, Nat.clog 2 (padTo l.length), gatesOf l⟩
    simp only [paddedUp, layersOf, List.map_cons, List.sum_cons, List.dropLast_cons_cons, List.length_cons] at this ⊢
    rw [this]
    ring

set_option maxHeartbeats 1600000 in
/-- For every circuit accepted at construction with at least one layer of gates, all public inputs, all outputs and all
numbers of rounds of the two proofs about the witness commitment, there are a function that reads a witness from its
commitment and sets of at most six field elements, one for every state of the transcript and the challenges so far, such
that for every hash function and every proof that the verifier accepts: the outputs are, up to trailing zeros, what the
circuit computes from the witness read and the public inputs, or some challenge fell in the set of that moment. The number
of challenges is fixed. Reading inverts committing. -/
theorem C88 (params : Params G) (hp : GoodZk F params) (ni na : Nat) (raw : List (List (Nat × Nat × Nat))) (c : Circuit)
    (hc : Circuit.new ni na raw = .ok c) (hne : raw ≠ []) (k : Nat) (hk : k = Nat.clog 2 (max na ni))
    (inputs outputs : List F) (k0 k1 : Nat) :
    ∃ (ext : List G → List F) (bad : Transcript F G → List F → Finset F),
      (∀ t vs, (bad t vs).card ≤ 6) ∧ (∀ com, (ext com).length = 2 ^ k) ∧
      (∀ w blinds com t t', w.length = 2 ^ k → 2 ^ (k - k / 2) ≤ params.pc.genN.generators.length →
        packCommit params.pc.genN.generators params.pc.genN.h w blinds t = .ok (com, t') → ext com = w) ∧
      ∀ (ch : Oracle F G) (circuitHash paramsHash : F) (proof : ZkGkrProof F G) (tr' : Transcript F G),
        proof.prod0.L.length = k0 → proof.prod1.L.length = k1 →
        zkVerifyRun ch params c outputs inputs proof (zkStart circuitHash paramsHash inputs outputs) = .ok ((), tr') →
        numChal tr' = numChallenges c k0 k1 ∧
        ((inputs.length ≤ 2 ^ k ∧
          ∀ i, outputs.getD i 0 = (topValues (inputTable k (ext proof.witness) inputs) raw).getD i 0) ∨
        Hit ch bad (zkStart circuitHash paramsHash inputs outputs) tr') := by
  have hl := (C55_accepted ni na raw).1 ⟨c, hc⟩
  rw [new_eq ni na raw hl] at hc
  obtain rfl := (Except.ok.inj hc).symm
  have hbit : (inputNew ni na).bitSize = k + 1 := by rw [inputNew_bitSize, hk]
  rw [← hk, show 2 * 2 ^ k = 2 ^ (k + 1) by rw [pow_succ]; omega] at hl
  obtain ⟨u, hu⟩ := List.length_eq_one_iff.1 hp.one
  obtain ⟨φ, hφ⟩ := hp.indep.reads
  obtain ⟨φ3, hφ3⟩ := hp.indep3.reads
  rw [hu] at hφ
  obtain ⟨pre, l, rfl⟩ := splitLast raw hne
  obtain ⟨nb, hnb⟩ : ∃ nb, nb = Nat.clog 2 (padTo l.length) := ⟨_, rfl⟩
  refine ⟨wit φ k, fun t vs => badRun φ φ3 (Submodule.span F {u, params.gen1.h}) (pre ++ [l]) (k + 1) nb outputs
    (inputTable k (wit φ k (firstPts t)) inputs) k0 k1 (said t) vs, fun t vs => badRun_card _ _ _ _ _ _ _ _ _ _ _ _,
    wit_length φ k, fun w blinds com t t' hw hg h => ?_, ?_⟩
  · rw [hp.blind] at h
    exact wit_pack hφ k w blinds hw hg com t t' h
  intro ch circuitHash paramsHash proof tr' hk0 hk1 hrun
  obtain ⟨S, hS⟩ : ∃ S, S = Submodule.span F {u, params.gen1.h} := ⟨_, rfl⟩
  rw [← hS]
  unfold zkVerifyRun at hrun
  obtain ⟨_, tr0, h1, hrun⟩ := bind_inv hrun
  have htr0 := (say_inv h1).symm
  clear h1
  obtain ⟨_, _, h1, hrun⟩ := bind_inv hrun
  obtain ⟨_, rfl⟩ := ensure_inv h1
  obtain ⟨last, _, h1, hrun⟩ := bind_inv hrun
  obtain ⟨hlast, rfl⟩ := orPanic_inv h1
  obtain ⟨⟨resultU, gu⟩, tr1, hout, hrun⟩ := bind_inv hrun
  obtain ⟨_, _, h1, hrun⟩ := bind_inv hrun
  obtain ⟨hlen, rfl⟩ := ensure_inv h1
  obtain ⟨⟨ru, rv, X, Y⟩, tr2, hlay, hrun⟩ := bind_inv hrun
  obtain ⟨l0, _, h1, hrun⟩ := bind_inv hrun
  obtain ⟨hl0, rfl⟩ := orPanic_inv h1
  obtain ⟨_, _, h1, hrun⟩ := bind_inv hrun
  obtain ⟨_, rfl⟩ := ensure_inv h1
  obtain ⟨_, _, h1, hrun⟩ := bind_inv hrun
  obtain ⟨hin, rfl⟩ := ensure_inv h1
  obtain ⟨_, tr3, hin0, hin1⟩ := bind_inv hrun
  obtain rfl : inputNew ni na = l0 := by simpa using hl0
  simp only [decide_eq_true_eq, hbit, Nat.add_sub_cancel] at hin hin0 hin1 hlen
  obtain ⟨v0, hv0⟩ : ∃ v0, v0 = inputTable k (wit φ k proof.witness) inputs := ⟨_, rfl⟩
  rw [← hv0]
  obtain ⟨ins, hins⟩ : ∃ ins, ins = inputs ++ List.replicate (2 ^ k - inputs.length) 0 := ⟨_, rfl⟩
  have hinsl : ins.length = 2 ^ k := by rw [hins]; simp; omega
  rw [← hins] at hin0 hin1
  have hv0' : v0 = wit φ k proof.witness ++ ins := by rw [hv0, hins]; rfl
  have hv0l : v0.length = 2 ^ (k + 1) := by rw [hv0', List.length_append, wit_length, hinsl, pow_succ]; omega
  obtain ⟨_, t2⟩ := topValues_length pre l v0 (inputNew ni na)
  have hw := paddedUp_wires _ v0 _ hv0l hl
  have htl := paddedTop_length pre l v0
  have hgd := padded_getD (pre ++ [l]) v0 v0 fun _ => rfl
  rw [← hnb] at htl t2
  -- the run from the commitment on
  have key : (∃ a b, At ch tr0 tr' a b ∧ b.length = numChallenges ⟨(pre ++ [l]).length + 1, inputNew ni na :: layersOf (pre ++ [l])⟩ k0 k1) ∧
      ((∃ i, outputs.getD i 0 ≠ (topValues v0 (pre ++ [l])).getD i 0) →
        HitFrom ch (badRun φ φ3 S (pre ++ [l]) (k + 1) nb outputs v0 k0 k1) tr0 tr') := by
    obtain rfl : last = ⟨l.length, nb, gatesOf l⟩ := by
      simp only [List.length_append, List.length_singleton, Nat.add_sub_cancel] at hlast
      rw [t2] at hlast
      exact (Option.some.inj hlast).symm
    unfold badRun
    obtain ⟨top, htop⟩ : ∃ top, top = paddedTop v0 (pre ++ [l]) := ⟨_, rfl⟩
    rw [← htop] at hw htl hgd ⊢
    obtain ⟨e, hedef⟩ : ∃ e : List F, e = (List.range (2 ^ nb)).map fun i => outputs.getD i 0 - top.getD i 0 := ⟨_, rfl⟩
    rw [← hedef]
    have heD : ∀ i < 2 ^ nb, e.getD i 0 = outputs.getD i 0 - top.getD i 0 := fun i hi => by rw [hedef, getD_map_range _ _ hi]
    have hel : e.length = 2 ^ nb := by rw [hedef]; simp
    obtain ⟨items, hitems⟩ : ∃ items, items = (paddedUp v0 (k + 1) (pre ++ [l])).reverse := ⟨_, rfl⟩
    rw [← hitems] at hw ⊢
    have hparts : layerParts ⟨(pre ++ [l]).length + 1, inputNew ni na :: layersOf (pre ++ [l])⟩ =
        items.map fun x => (x.1, x.2.2) := by
      rw [← upward_parts _ v0, hbit, List.map_reverse, hitems, List.map_reverse, paddedUp_parts]
    rw [hparts] at hlay
    have hilen : items.length = (pre ++ [l]).length := by rw [hitems, List.length_reverse, paddedUp_length]
    -- the outputs
    simp only at hout
    unfold evalOutput at hout
    obtain ⟨_, _, o1, hout⟩ := bind_inv hout
    obtain ⟨o1', rfl⟩ := ensure_inv o1
    obtain ⟨rs, _, o2, hout⟩ := bind_inv hout
    obtain ⟨res, _, o3, hout⟩ := bind_inv hout
    obtain ⟨o3', rfl⟩ := orPanic_inv o3
    obtain ⟨o4, rfl⟩ := pure_inv hout
    obtain ⟨rfl, rfl⟩ : res = resultU ∧ rs = gu := by simpa using o4
    simp only [decide_eq_true_eq] at o1'
    obtain ⟨q1, d2⟩ := challenges_at o2
    have hres : res = mle outputs rs := by
      rw [evalValue_eq _ _ (by simp [d2]; omega), mle_padded] at o3'
      exact (Option.some.inj o3').symm
    obtain ⟨b1, b2, ⟨a4, b4', q4, lb4⟩, b4⟩ := zkLayers_sound params u hu hp.three φ φ3 hφ hφ3 S hS ch items
      (by intro h0; rw [h0] at hilen; simp at hilen) proof.proofs top v0 rs rs 1 0 _ rfl (by rw [htl, d2]) hw
      (by rw [hilen, ← hlen]) ru rv X Y _ tr2 hlay
    have hru : ru.length = k + 1 := Nat.pow_right_injective le_rfl (b1.symm.trans hv0l)
    have hrv : rv.length = k + 1 := Nat.pow_right_injective le_rfl (b2.symm.trans hv0l)
    obtain ⟨a5, b5, q5, la5, lb5, s5⟩ := input_sound params hp.shared u hu φ hφ S hS ch proof.witness proof.prod0 k0 hk0 proof.y0
      proof.eq0 ins ru X k hru hinsl tr2 tr3 hin0
    obtain ⟨a6, b6, q6, la6, lb6, s6⟩ := input_sound params hp.shared u hu φ hφ S hS ch proof.witness proof.prod1 k1 hk1 proof.y1
      proof.eq1 ins rv Y k hrv hinsl tr3 tr' hin1
    refine ⟨⟨_, _, q1.trans (q4.trans (q5.trans q6)), ?_⟩, fun hgood => ?_⟩
    · have hlast' : ((inputNew ni na :: layersOf (pre ++ [l])).getLastD ⟨0, 0, []⟩).bitSize = nb := by
        simp [layersOf, hnb, List.getLast?_cons]
      have hsum : (items.map fun x => 8 * x.2.2 + 4).sum =
          ((inputNew ni na :: layersOf (pre ++ [l])).dropLast.map fun l => 8 * l.bitSize + 2).sum + 2 * (pre ++ [l]).length := by
        rw [hitems, List.map_reverse, List.sum_reverse, ← hbit]
        exact sum_sizes (pre ++ [l]) v0 (inputNew ni na)
      unfold numChallenges
      simp only [hlast', List.length_append, d2, lb5, lb6]
      rw [hsum] at lb4
      have : (inputNew ni na :: layersOf (pre ++ [l])).length = pre.length + 2 := by simp [layersOf]
      simp only [List.length_append, List.length_singleton] at lb4
      rw [this]
      omega
    have hwrong : ∃ j, e.getD j 0 ≠ 0 := by
      obtain ⟨i, hi⟩ := hgood
      have hil : i < 2 ^ nb := by
        by_contra hcon
        apply hi
        rw [← hgd i, List.getD_eq_default _ _ (by omega), List.getD_eq_default _ _ (by omega)]
      refine ⟨i, ?_⟩
      rw [heD i hil, hgd i]
      exact sub_ne_zero.2 hi
    rcases out_sound ch _ nb e rs _ _ hel hwrong o2 with hb | hb
    · exact (HitFrom.of_hit hb).first q1 d2 (q4.pre.trans (q5.pre.trans q6.pre))
    refine HitFrom.second q1 rfl d2 ?_
    have hmle : mle e rs = mle outputs rs - mle top rs := by
      unfold mle
      rw [← Finset.sum_sub_distrib]
      apply Finset.sum_congr rfl
      intro i hi
      rw [heD i (by rw [← d2]; exact Finset.mem_range.1 hi)]
      ring
    obtain ⟨c1, c2⟩ := b4 (fun ru rv => after (k0 + 2) (2 * k0 + 7) (badInput φ k0 ru) fun _ _ => badInput φ k1 rv) tr'
      (q5.pre.trans q6.pre)
    have hψ : φ 0 (commitVec params.pc.gen1.generators [1 * res + 0 * 0] params.pc.gen1.h (0 : F)) = res := by
      rw [hp.shared, hu]
      have : φ 0 u = 1 := hφ.gen 0 0 (by simp)
      simp [commitVec, msm, this]
    rcases c2 (by
      rw [hψ, hres]
      rw [hmle] at hb
      simpa using sub_ne_zero.1 hb) with hit | ⟨hfin, mX, mY, x1, x2⟩
    · exact hit
    apply c1
    rw [hv0'] at hfin
    rcases hfin with hX | hY
    · exact (s5 hX mX x1).first q5 lb5 q6.pre
    · exact HitFrom.second q5 la5 lb5 (s6 hY mY x2)
  obtain ⟨⟨_, bs, qs, hbs⟩, key⟩ := key
  refine ⟨?_, ?_⟩
  · rw [← drawn_length ch, qs.chs, List.length_append, hbs, htr0]
    exact Nat.zero_add _
  by_cases hgood : ∀ i, outputs.getD i 0 = (topValues v0 (pre ++ [l])).getD i 0
  · exact Or.inl ⟨hin, hgood⟩
  right
  push Not at hgood
  obtain ⟨t, lab, a, b, hat, hpre, hmem⟩ := key hgood
  refine ⟨t, lab, ?_, hpre, ?_⟩
  · refine List.IsPrefix.trans ?_ hat.pre
    rw [htr0]
    exact List.prefix_append _ _
  · obtain ⟨w, hw'⟩ := hat.pre
    have e1 : firstPts t = proof.witness := by rw [← hw', htr0]; rfl
    have e2 : said t = a := by rw [hat.pts, htr0]; rfl
    have e3 : drawn ch t = b := by rw [hat.chs, htr0]; rfl
    beta_reduce
    rw [e1, e2, e3, ← hv0]
    exact hmem

open Classical in
/-- The same as a count, when the challenges are drawn from a tape of `m` field elements (the interactive protocol): if
no witness makes the circuit compute the outputs, then for every prover whose messages before each challenge depend only
on the earlier challenges, at most `6 · m · |F| ^ (m - 1)` of the `|F| ^ m` tapes lead to acceptance. -/
theorem C88_count [Fintype F] (params : Params G) (hp : GoodZk F params) (ni na : Nat) (raw : List (List (Nat × Nat × Nat)))
    (c : Circuit) (hc : Circuit.new ni na raw = .ok c) (hne : raw ≠ []) (k : Nat) (hk : k = Nat.clog 2 (max na ni))
    (inputs outputs : List F) (k0 k1 : Nat)
    (hwrong : ∀ w : List F, w.length = 2 ^ k →
      ∃ i, outputs.getD i 0 ≠ (topValues (inputTable k w inputs) raw).getD i 0)
    (circuitHash paramsHash : F) (m : Nat) (hm : m = numChallenges c k0 k1) (prover : (Fin m → F) → ZkGkrProof F G)
    (h0 : ∀ f, (prover f).prod0.L.length = k0) (h1 : ∀ f, (prover f).prod1.L.length = k1)
    (hcausal : ∀ f g tr tr',
      zkVerifyRun (tape (List.ofFn f)) params c outputs inputs (prover f)
        (zkStart circuitHash paramsHash inputs outputs) = .ok ((), tr) →
      zkVerifyRun (tape (List.ofFn g)) params c outputs inputs (prover g)
        (zkStart circuitHash paramsHash inputs outputs) = .ok ((), tr') →
      ∀ i : Fin m, (∀ j < i, f j = g j) → before i tr = before i tr') :
    (Finset.univ.filter fun f : Fin m → F => zkVerify (tape (List.ofFn f)) params c outputs inputs circuitHash paramsHash
      (prover f) = .ok true).card ≤ m * 6 * Fintype.card F ^ (m - 1) := by
  obtain ⟨ext, bad, hb, hl, -, h⟩ := C88 params hp ni na raw c hc hne k hk inputs outputs k0 k1
  refine card_accepted m 6 bad hb (zkStart circuitHash paramsHash inputs outputs) rfl
    (fun f tr => zkVerifyRun (tape (List.ofFn f)) params c outputs inputs (prover f)
      (zkStart circuitHash paramsHash inputs outputs) = .ok ((), tr))
    (fun f tr ha => ((h _ _ _ (prover f) tr (h0 f) (h1 f) ha).1.trans hm.symm).le) hcausal
    (fun f tr ha => (h _ _ _ (prover f) tr (h0 f) (h1 f) ha).2.resolve_left fun hs => ?_) _ ?_
  · obtain ⟨i, hi⟩ := hwrong _ (hl (prover f).witness)
    exact hi (hs.2 i)
  · intro f hf
    have := (Finset.mem_filter.1 hf).2
    unfold zkVerify at this
    split at this
    · rename_i r hr
      exact ⟨r.2, hr⟩
    · cases this

/-! ### A run -/

/-- Unit vectors as generators. -/
def exVectors : ParamRand V5 := ⟨fun i => if i = 0 then ex 2 else ex 3, ex 0, ex 1,
  fun i => if i = 0 then ex 1 else if i = 1 then ex 2 else ex 3, ex 0, fun _ => 0, 0⟩

theorem exVectors_good : GoodZk F17 (paramsNew 2 exVectors) :=
  ⟨rfl, rfl, rfl, rfl, ex_indep [0, 1, 2, 3] (by decide), ex_indep [0, 1, 2, 3] (by decide)⟩

/-- The honest prover for two layers over two public inputs and two witness values: its proof is accepted, and what the
theorem says holds for it. -/
example : ∃ c, Circuit.new 2 2 [[(0, 0, 2), (1, 1, 3)], [(1, 0, 1), (0, 0, 1), (1, 1, 1)]] = .ok c ∧
    ∃ (proof : ZkGkrProof F17 V5) (tr' : Transcript F17 V5) (ext : List V5 → List F17)
      (bad : Transcript F17 V5 → List F17 → Finset F17), (∀ t vs, (bad t vs).card ≤ 6) ∧
    zkVerifyRun (fun _ => 3) (paramsNew 2 exVectors) c [8 * 24, 8 + 24, 24 * 24] [3, 4] proof
      (zkStart 1 2 [3, 4] [8 * 24, 8 + 24, 24 * 24]) = .ok ((), tr') ∧
    ((∀ i, [8 * 24, 8 + 24, 24 * 24].getD i (0 : F17) = (topValues (inputTable 1 (ext proof.witness) [3, 4])
        [[(0, 0, 2), (1, 1, 3)], [(1, 0, 1), (0, 0, 1), (1, 1, 1)]]).getD i 0) ∨
      Hit (fun _ => 3) bad (zkStart 1 2 [3, 4] [8 * 24, 8 + 24, 24 * 24]) tr') := by
  have hk : Nat.clog 2 (max 2 2) = 1 := by decide
  obtain ⟨c, hc⟩ := (C55_accepted 2 2 [[(0, 0, 2), (1, 1, 3)], [(1, 0, 1), (0, 0, 1), (1, 1, 1)]]).2 (by
    rw [hk]; simp [LegalLayers, Legal])
  obtain ⟨proof, -, h2⟩ := C87_partial (F := F17) (G := V5) (by decide) (fun _ => 3) (fun t => by decide) 2 exVectors 2 2 _ c hc
    (by simp) (fun l hl => ⟨1, le_rfl, by simp at hl; rw [hl]; rfl⟩) 1 hk.symm [3, 4] [5, 6] rfl rfl (by simp) (by simp)
    (by simp) 1 2 (exGkrRand 1) rfl (exGkrRand_ok 1) (by simp [exGkrRand]) (by simp [exGkrRand])
  have ho : honest [[(0, 0, 2), (1, 1, 3)], [(1, 0, 1), (0, 0, 1), (1, 1, 1)]] [3, 4] [5, 6] =
      ([8 * 24, 8 + 24, 24 * 24] : List F17) := by decide +kernel
  rw [ho] at h2
  obtain ⟨ext, bad, hb, -, -, h⟩ := C88 (paramsNew 2 exVectors) exVectors_good 2 2 _ c hc (by simp) 1 hk.symm [3, 4]
    [8 * 24, 8 + 24, 24 * 24] proof.prod0.L.length proof.prod1.L.length
  unfold zkVerify at h2
  split at h2
  · rename_i r hr
    exact ⟨c, hc, proof, r.2, ext, bad, hb, hr, (h _ 1 2 proof r.2 rfl rfl hr).2.imp (·.2) id⟩
  · cases h2

/-- A prover that sends the same proof always, of outputs no witness gives: the gate computes twice the public input, which
is 3, and the output 5 is claimed. (Over a field this small the bound itself says little; the case shows that the
hypotheses can be met.) -/
example (c : Circuit) (hc : Circuit.new 2 2 [[(0, 2, 2)]] = .ok c) (proof : ZkGkrProof F17 V5) (m : Nat)
    (hm : m = numChallenges c proof.prod0.L.length proof.prod1.L.length) (acc : Finset (Fin m → F17))
    (h : ∀ f ∈ acc, zkVerify (tape (List.ofFn f)) (paramsNew 2 exVectors) c [5] [3, 4] 1 2 proof = .ok true) :
    acc.card ≤ m * 6 * 17 ^ (m - 1) := by
  classical
  have hk : Nat.clog 2 (max 2 2) = 1 := by decide
  have := C88_count (paramsNew 2 exVectors) exVectors_good 2 2 _ c hc (by simp) 1 hk.symm [3, 4] [5] _ _ (fun w hw => ⟨0, by
      obtain ⟨a, b, rfl⟩ := List.length_eq_two.1 hw
      intro h0
      have : (5 : F17) = 3 + 3 := h0
      revert this
      decide⟩) 1 2 m hm (fun _ => proof) (fun _ => rfl) (fun _ => rfl)
    (fun f g tr tr' h h' i hi => (Causal.zk (paramsNew 2 exVectors) c [5] [3, 4] proof).before f g i hi h h')
  rw [ZMod.card] at this
  exact (Finset.card_le_card fun f hf => Finset.mem_filter.2 ⟨Finset.mem_univ _, h f hf⟩).trans this

end Zkp.Lz
