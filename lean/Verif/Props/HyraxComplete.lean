/- C86: which honest runs of Hyrax succeed. -/
import Verif.Proof.HyraxHonest
import Verif.Props.HyraxSound

namespace Zkp.Hx

open Zkp.Ml Zkp.Spartan Zkp.Gkr Zkp.Cp

set_option linter.unusedSectionVars false
set_option linter.unusedSimpArgs false

variable {F : Type} [Field F] {G : Type} [AddCommGroup G] [Module F G] [DecidableEq F] [DecidableEq G]

/-- The outputs of the circuit for one instance, if the input layer has `2 ^ k` witness values before `2 ^ k` public
values. -/
def honestOutputs (k : Nat) (raw : List (List (Nat × Nat × Nat))) (p : List F × List F) : List F :=
  topValues (layout (2 ^ k) p.1 p.2) raw

theorem tapers_top (raw : List (List (Nat × Nat × Nat))) (n : Nat) (v : List F) (hv : v.length = n) :
    (topValues v raw).length = (counts n raw).getD raw.length 0 := by
  have hl := circuitValues_lengths raw v
  rw [hv] at hl
  have h2 := congrArg List.length hl
  simp only [List.length_map, counts, List.length_cons] at h2
  have hlast : topValues v raw = (v :: circuitValues v raw).getD raw.length [] := by
    unfold topValues
    rw [List.getLastD_eq_getLast?, List.getLast?_eq_getElem?, List.getD_eq_getElem?_getD]
    congr 2
    simp only [List.length_cons]; omega
  rw [hlast, getD_length _ _ (by simp only [List.length_cons]; omega), hl]

/-- Circuits whose layers have a power of two of gates and do not widen, for at least two instances with as many
public inputs as witness values: the prover does not panic, the outputs it returns are those of the circuit, and the
verifier accepts, also when it compares the claims of the layers, which the code does not (`C53_sound_partial`). -/
theorem C86_checked (h2 : (2 : F) ≠ 0) (h3 : (3 : F) ≠ 0) (ch : Oracle F G) (hch : ∀ t, ch (t ++ [.chal "x"]) ≠ 0)
    (num : Nat) (r : ParamRand G) (ni na : Nat) (raw : List (List (Nat × Nat × Nat))) (c : Circuit)
    (hc : Circuit.new ni na raw = .ok c) (hraw : raw ≠ []) (k : Nat) (hk : k = Nat.clog 2 (max na ni))
    (ht : Tapers (2 * 2 ^ k) raw) (ps : List (List F × List F)) (logN : Nat) (hN : 1 ≤ logN) (hn : ps.length = 2 ^ logN)
    (hlen : ∀ p ∈ ps, p.1.length ≤ ni ∧ p.2.length = p.1.length ∧ p.2.length ≤ na ∧ Nat.clog 2 p.1.length = k)
    (hnum : logN + k ≤ num) (circuitHash paramHash : F) (rand : HyraxRand F)
    (hw : rand.witness.length = 2 ^ ((logN + k) / 2)) (hb0 : logN + k - (logN + k) / 2 ≤ rand.in0.bullet.length)
    (hb1 : logN + k - (logN + k) / 2 ≤ rand.in1.bullet.length) (tr : Transcript F G) :
    ∃ proof tr',
      prove ch (paramsNew num r) (ps.map Prod.snd) (ps.map Prod.fst) c circuitHash paramHash (2 ^ logN) rand tr =
        .ok ((proof, ps.map (honestOutputs k raw)), tr') ∧
      verifyChecked ch (paramsNew num r) proof (ps.map (honestOutputs k raw)) (ps.map Prod.fst) c circuitHash paramHash tr =
        .ok ((), tr') := by
  have hl := (C55_accepted ni na raw).1 ⟨c, hc⟩
  have heval : ∀ p ∈ ps, c.evaluate p.1 p.2 =
      .ok (layout (2 ^ k) p.1 p.2 :: circuitValues (layout (2 ^ k) p.1 p.2) raw) := by
    intro p hp
    obtain ⟨l1, l2, l3, _⟩ := hlen p hp
    obtain ⟨v0, e0, _, ev⟩ := C55_evaluates ni na raw c hc p.1 p.2 l1 l3
    rw [(C54_partial ni na p.1 p.2 l1 l3 l2.symm).1] at e0
    rw [ev, hk, ← Except.ok.inj e0]
  rw [new_eq ni na raw hl] at hc
  obtain rfl := (Except.ok.inj hc).symm
  have hf := fits_input ni na
  rw [← hk] at hl hf
  obtain ⟨L, hL⟩ : ∃ L, raw.length = L + 1 := ⟨raw.length - 1, by
    have := List.length_pos_iff.2 hraw; omega⟩
  have hv : ∀ v ∈ ps.map (fun p => layout (2 ^ k) p.1 p.2), v.length = 2 * 2 ^ k := by
    intro v hv
    obtain ⟨p, hp, rfl⟩ := List.mem_map.1 hv
    obtain ⟨l1, l2, l3, _⟩ := hlen p hp
    simp only [layout, List.length_append, List.length_replicate]; omega
  have hon := honest_of ni na raw (ps.map fun p => layout (2 ^ k) p.1 p.2) logN (hk ▸ hl) (hk ▸ ht) (by simpa using hn)
    (hk ▸ hv)
  obtain ⟨s1, s2⟩ := tapers_size raw (2 * 2 ^ k) ⟨k + 1, by rw [pow_succ]; omega⟩ ht
  rw [← hk] at hon
  obtain ⟨s, hs⟩ : ∃ s, s = sizeLog (2 * 2 ^ k) raw := ⟨_, rfl⟩
  rw [← hs] at hon s1 s2
  have hs0 : s 0 = k + 1 := by
    rw [hs]; simp only [sizeLog, counts, List.getD_cons_zero]
    rw [show 2 * 2 ^ k = 2 ^ (k + 1) by rw [pow_succ]; omega, Nat.clog_pow 2 _ (by decide)]
  obtain ⟨evals, hE⟩ : ∃ evals, evals =
    (ps.map fun p => layout (2 ^ k) p.1 p.2).map fun v => v :: circuitValues v raw := ⟨_, rfl⟩
  rw [← hE] at hon
  have hE' : evals = ps.map fun p => layout (2 ^ k) p.1 p.2 :: circuitValues (layout (2 ^ k) p.1 p.2) raw := by
    rw [hE, List.map_map]; rfl
  have hO : evals.map (fun e => e.getLastD []) = ps.map (honestOutputs k raw) := by
    rw [hE', List.map_map]; rfl
  have hOD : ps.map (honestOutputs k raw) = evals.map fun e => e.getD (L + 1) [] := by
    rw [← hO]
    refine List.map_congr_left fun e he => ?_
    rw [hE'] at he
    obtain ⟨p, hp, rfl⟩ := List.mem_map.1 he
    have h2 := congrArg List.length (circuitValues_lengths raw (layout (2 ^ k) p.1 p.2))
    simp only [List.length_map, counts, List.length_cons] at h2
    rw [List.getLastD_eq_getLast?, List.getLast?_eq_getElem?, List.getD_eq_getElem?_getD]
    congr 2
    simp only [List.length_cons]; omega
  have hOl : ∀ o ∈ ps.map (honestOutputs k raw), o.length = 2 ^ s (L + 1) := by
    intro o ho
    obtain ⟨p, hp, rfl⟩ := List.mem_map.1 ho
    rw [← s1 (L + 1) (by omega), ← hL]
    exact tapers_top raw _ _ (hv _ (List.mem_map.2 ⟨p, hp, rfl⟩))
  have hNc : Nat.clog 2 (2 ^ logN) = logN := Nat.clog_pow 2 _ (by decide)
  have hpad : ∀ p ∈ ps, padTo p.1.length = 2 ^ k ∧ padTo p.2.length = 2 ^ k := by
    intro p hp
    obtain ⟨l1, l2, l3, l4⟩ := hlen p hp
    exact ⟨by rw [padTo, l4], by rw [padTo, l2, l4]⟩
  have hlen' : ∀ p ∈ ps, p.1.length ≤ 2 ^ k ∧ p.2.length ≤ 2 ^ k := by
    intro p hp
    obtain ⟨l1, l2, l3, l4⟩ := hlen p hp
    omega
  have hwit : (inputVec (ps.map Prod.snd)).length = 2 ^ (logN + k) := by
    rw [inputVec_len _ (2 ^ k) (by
      intro v hv; obtain ⟨p, hp, rfl⟩ := List.mem_map.1 hv; exact (hpad p hp).2), List.length_map, hn, pow_add]
  have hins : (inputVec (ps.map Prod.fst)).length = 2 ^ (logN + k) := by
    rw [inputVec_len _ (2 ^ k) (by
      intro v hv; obtain ⟨p, hp, rfl⟩ := List.mem_map.1 hv; exact (hpad p hp).1), List.length_map, hn, pow_add]
  have hsize : 2 ^ (logN + k - (logN + k) / 2) ≤ 2 ^ (num - num / 2) := Nat.pow_le_pow_right (by decide) (by omega)
  obtain ⟨params, hP⟩ : ∃ params : Params G, params = paramsNew num r := ⟨_, rfl⟩
  have p1 : params.pc.genN.h = params.pc.gen1.h := by rw [hP]; rfl
  have p2 : params.pc.gen1 = params.gen1 := by rw [hP]; rfl
  have p3 : 2 ^ (logN + k - (logN + k) / 2) ≤ params.pc.n := by rw [hP]; exact hsize
  have p4 : 2 ^ (logN + k - (logN + k) / 2) ≤ params.pc.genN.generators.length := by
    rw [hP]; simpa [paramsNew, multiNew] using hsize
  have p5 : params.pc.gen1.generators ≠ [] := by rw [hP]; simp [paramsNew]
  rw [← hP]
  have hpack : ∀ t : Transcript F G, ∃ comms, packCommit params.pc.genN.generators params.pc.genN.h
      (inputVec (ps.map Prod.snd)) rand.witness t = .ok (comms, t) := by
    intro t
    refine ⟨(List.range (2 ^ ((logN + k) / 2))).map fun i => commitVec params.pc.genN.generators
      (((inputVec (ps.map Prod.snd)).drop (i * 2 ^ (logN + k - (logN + k) / 2))).take (2 ^ (logN + k - (logN + k) / 2)))
      params.pc.genN.h (rand.witness.getD i 0), Cp.runs_eq ?_⟩
    unfold packCommit
    rw [hwit, Nat.clog_pow 2 _ (by decide)]
    refine (Runs.ensure (decide_eq_true (by rw [← pow_add]; congr 1; omega))).bind fun _ _ e => ?_
    subst e
    refine (Runs.ensure (decide_eq_true hw)).bind fun _ _ e => ?_
    subst e
    exact Runs.pure ⟨rfl, rfl⟩
  obtain ⟨t1, i1, i2⟩ := instances_run (G := G) ⟨raw.length + 1, inputNew ni na :: layersOf raw⟩
    (fun i w => layout (2 ^ k) i w :: circuitValues (layout (2 ^ k) i w) raw) ps heval
    (tr ++ [.fr "circuit_to_hash" circuitHash] ++ [.fr "param_to_hash" paramHash])
  rw [← hE'] at i1
  obtain ⟨comms, hcom⟩ := hpack t1
  obtain ⟨qa, q, t2, o1, hqa, hq⟩ := outputs_run ch (ps.map (honestOutputs k raw)) logN (s (L + 1)) (by simpa using hn) hOl
    (t1 ++ [.pts "comm_witness" comms])
  obtain ⟨res, hres⟩ : ∃ res, res = mle ((ps.map (honestOutputs k raw)).map fun o => mle o q) qa := ⟨_, rfl⟩
  rw [← hres] at o1
  obtain ⟨a, ha⟩ : ∃ a, a = commitVec params.gen1.generators [res] params.gen1.h (0 : F) := ⟨_, rfl⟩
  have hclaim : res = layerVal s evals (L + 1) qa q * 1 + layerVal s evals (L + 1) qa q * 0 := by
    rw [mul_one, mul_zero, add_zero, layerVal_eq _ _ _ _ _ hq, hres, hOD, List.map_map]; rfl
  obtain ⟨proofs, st, sv, t3, y1, y2, y3, y4, y5, y6, y7, y8, y9, y10, y11, y12, y13⟩ :=
    layers_follow h2 h3 ch params ⟨raw.length + 1, inputNew ni na :: layersOf raw⟩ (L + 1) (by simp [layersOf, hL])
      (by simp [hL]) s evals (2 ^ logN) (by omega) (by rw [hNc]; exact hon) (fun i hi => s2 i (by omega)) rand.layers L 0
      ⟨res, a, 0, 0, 0, 0, 0, 1, 0, qa, q, q⟩ a a (t2 ++ [.pt "comm_claim_a0" a]) (by omega) (by rw [hNc]; exact hqa) hq hq
      hclaim ha
  rw [hNc] at y7
  have hx := input_value (F := F) s raw k hs0 ps hlen' hpad st.qa st.ql (by rw [y8, hs0])
  have hy := input_value (F := F) s raw k hs0 ps hlen' hpad st.qa st.qr (by rw [y9, hs0])
  rw [← hE, ← y10] at hx
  rw [← hE, ← y11] at hy
  obtain ⟨prod0, y0c, eq0, t4, z1, z2⟩ := input_follow ch hch params p1 p2 _ rand.witness (inputVec (ps.map Prod.fst)) st.qa
    st.ql (logN + k) (by omega) (by omega) hwit hw hins.le p3 p4 p5 st.x st.rx rand.in0 hb0 hx comms _ _ hcom t3
  obtain ⟨prod1, y1c, eq1, t5, z3, z4⟩ := input_follow ch hch params p1 p2 _ rand.witness (inputVec (ps.map Prod.fst)) st.qa
    st.qr (logN + k) (by omega) (by omega) hwit hw hins.le p3 p4 p5 st.y st.ry rand.in1 hb1 hy comms _ _ hcom t4
  have hzip : ((ps.map Prod.fst).zip (ps.map Prod.snd)).take (2 ^ logN) = ps := by
    rw [List.zip_map', List.take_of_length_le (by simp [hn])]; simp
  have htake : (ps.map Prod.snd).take (2 ^ logN) = ps.map Prod.snd := List.take_of_length_le (by simp [hn])
  have htake' : (ps.map Prod.fst).take (ps.map (honestOutputs k raw)).length = ps.map Prod.fst :=
    List.take_of_length_le (by simp)
  have hpos : 0 < 2 ^ logN := by positivity
  have hres' : commitVec params.gen1.generators [res] params.gen1.h (0 : F) = a := ha.symm
  refine ⟨⟨comms, proofs, prod0, y0c, eq0, prod1, y1c, eq1⟩, t5, ?_, ?_⟩
  · apply Cp.runs_eq
    unfold prove
    refine Runs.say.bind fun _ _ e => ?_
    subst e
    refine Runs.say.bind fun _ _ e => ?_
    subst e
    refine (Runs.ensure (by simp [hn])).bind fun _ _ e => ?_
    subst e
    rw [hzip, htake]
    refine (Cp.runs_of i1).bind fun _ _ e => ?_
    obtain ⟨rfl, rfl⟩ := e
    refine (Runs.ensure (decide_eq_true (padTo_two_pow logN))).bind fun _ _ e => ?_
    subst e
    refine (Runs.ensure (decide_eq_true hpos)).bind fun _ _ e => ?_
    subst e
    simp only [hO]
    refine (Cp.runs_of hcom).bind fun _ _ e => ?_
    obtain ⟨rfl, rfl⟩ := e
    refine Runs.say.bind fun _ _ e => ?_
    subst e
    refine (Cp.runs_of o1).bind fun _ _ e => ?_
    obtain ⟨rfl, rfl⟩ := e
    simp only [hres']
    refine Runs.say.bind fun _ _ e => ?_
    subst e
    refine (Runs.ensure (by simp)).bind fun _ _ e => ?_
    subst e
    rw [show raw.length + 1 - 1 = L + 1 by omega]
    refine (Cp.runs_of y1).bind fun _ _ e => ?_
    obtain ⟨rfl, rfl⟩ := e
    refine (Cp.runs_of z1).bind fun _ _ e => ?_
    obtain ⟨rfl, rfl⟩ := e
    refine (Cp.runs_of z3).bind fun _ _ e => ?_
    obtain ⟨rfl, rfl⟩ := e
    exact Runs.pure ⟨rfl, rfl⟩
  · apply Cp.runs_eq
    unfold verifyChecked
    refine Runs.say.bind fun _ _ e => ?_
    subst e
    refine Runs.say.bind fun _ _ e => ?_
    subst e
    have hol : (ps.map (honestOutputs k raw)).length = 2 ^ logN := by simpa using hn
    simp only [hol] at htake' ⊢
    refine (Runs.ensure (decide_eq_true (padTo_two_pow logN))).bind fun _ _ e => ?_
    subst e
    refine (Runs.ensure (decide_eq_true hpos)).bind fun _ _ e => ?_
    subst e
    refine (Cp.runs_of (show sayInstances _ (ps.map (honestOutputs k raw)) _ = _ from i2)).bind fun _ _ e => ?_
    obtain ⟨-, rfl⟩ := e
    refine Runs.say.bind fun _ _ e => ?_
    subst e
    refine (Cp.runs_of o1).bind fun _ _ e => ?_
    obtain ⟨rfl, rfl⟩ := e
    simp only [hres']
    refine Runs.say.bind fun _ _ e => ?_
    subst e
    refine (Runs.ensure (by simp)).bind fun _ _ e => ?_
    subst e
    rw [show raw.length + 1 - 1 = L + 1 by omega]
    refine (Cp.runs_of (y2 proofs (by simp))).bind fun _ _ e => ?_
    obtain ⟨rfl, rfl⟩ := e
    simp only [htake']
    rw [y4, y5, y6, y12, y13]
    refine (Cp.runs_of z2).bind fun _ _ e => ?_
    obtain ⟨-, rfl⟩ := e
    exact (Cp.runs_of z4).mono fun _ _ e => ⟨trivial, e.2⟩

/-- Circuits whose layers have a power of two of gates and do not widen, for at least two instances with as many
public inputs as witness values: the prover does not panic, the outputs it returns are those of the circuit, and the
verifier accepts.

Partial: the full claim is `C86_statement`; it is false (`C86_single`, `C86_shape`, `C86_lengths`). -/
theorem C86_partial (h2 : (2 : F) ≠ 0) (h3 : (3 : F) ≠ 0) (ch : Oracle F G) (hch : ∀ t, ch (t ++ [.chal "x"]) ≠ 0)
    (num : Nat) (r : ParamRand G) (ni na : Nat) (raw : List (List (Nat × Nat × Nat))) (c : Circuit)
    (hc : Circuit.new ni na raw = .ok c) (hraw : raw ≠ []) (k : Nat) (hk : k = Nat.clog 2 (max na ni))
    (ht : Tapers (2 * 2 ^ k) raw) (ps : List (List F × List F)) (logN : Nat) (hN : 1 ≤ logN) (hn : ps.length = 2 ^ logN)
    (hlen : ∀ p ∈ ps, p.1.length ≤ ni ∧ p.2.length = p.1.length ∧ p.2.length ≤ na ∧ Nat.clog 2 p.1.length = k)
    (hnum : logN + k ≤ num) (circuitHash paramHash : F) (rand : HyraxRand F)
    (hw : rand.witness.length = 2 ^ ((logN + k) / 2)) (hb0 : logN + k - (logN + k) / 2 ≤ rand.in0.bullet.length)
    (hb1 : logN + k - (logN + k) / 2 ≤ rand.in1.bullet.length) (tr : Transcript F G) :
    ∃ proof tr',
      prove ch (paramsNew num r) (ps.map Prod.snd) (ps.map Prod.fst) c circuitHash paramHash (2 ^ logN) rand tr =
        .ok ((proof, ps.map (honestOutputs k raw)), tr') ∧
      verify ch (paramsNew num r) proof (ps.map (honestOutputs k raw)) (ps.map Prod.fst) c circuitHash paramHash tr =
        .ok ((), tr') := by
  obtain ⟨proof, tr', h, h'⟩ := C86_checked h2 h3 ch hch num r ni na raw c hc hraw k hk ht ps logN hN hn hlen hnum circuitHash paramHash rand hw hb0 hb1 tr
  exact ⟨proof, tr', h, verifyChecked_imp _ _ _ _ _ _ _ _ _ _ h'⟩

/-! ### What a run of the prover requires -/

theorem zkLoop_needs (ch : Oracle F G) (gen1 genK : MultiParams G) (round : List (List F) → F → Option (List F))
    (blind : Nat → F) (blindEval : Nat → Option F) : ∀ k j claim comm ts (tr tr' : Transcript F G) l,
      zkLoop ch gen1 genK round blind blindEval k j claim comm ts tr = .ok (l, tr') →
        l.rs.length = k ∧ ∀ i < k, (blindEval (j + i)).isSome := by
  intro k
  induction k with
  | zero =>
    intro j claim comm ts tr tr' l h
    obtain ⟨rfl, -⟩ := pure_inv h
    exact ⟨rfl, by simp⟩
  | succ k ih =>
    intro j claim comm ts tr tr' l h
    unfold zkLoop at h
    obtain ⟨_, _, _, h⟩ := bind_inv h
    obtain ⟨_, _, _, h⟩ := bind_inv h
    obtain ⟨_, _, _, h⟩ := bind_inv h
    obtain ⟨_, _, _, h⟩ := bind_inv h
    obtain ⟨b, _, hb, h⟩ := bind_inv h
    obtain ⟨_, _, _, h⟩ := bind_inv h
    obtain ⟨_, _, _, h⟩ := bind_inv h
    obtain ⟨l', _, hl, h⟩ := bind_inv h
    obtain ⟨rfl, -⟩ := pure_inv h
    obtain ⟨i1, i2⟩ := ih _ _ _ _ _ _ _ hl
    refine ⟨by simp [i1], fun i hi => ?_⟩
    cases i with
    | zero => rw [Nat.add_zero, (orPanic_inv hb).1]; rfl
    | succ i =>
      have := i2 i (by omega)
      rwa [show j + 1 + i = j + (i + 1) by omega] at this

theorem zkProve_needs (ch : Oracle F G) (params : Params G) (claim : F) (a0 : G) (rc0 u0 u1 : F) (qa ql qr : List F)
    (gates : List Gate) (evals : List (List F)) (n ng : Nat) (rand : ZkRand F) (tr tr' : Transcript F G)
    (proof : ZkProof F G) (rs r0 r1 : List F) (x y : F)
    (h : zkProve ch params claim a0 rc0 u0 u1 qa ql qr gates evals n ng rand tr = .ok ((proof, (rs, r0, r1), x, y), tr')) :
    gates.length = 2 ^ ql.length ∧ 1 ≤ Nat.clog 2 n ∧ (Nat.clog 2 ng = 0 ∨ ql.length ≤ Nat.clog 2 ng) ∧
      r0.length = Nat.clog 2 ng := by
  unfold zkProve at h
  obtain ⟨_, _, _, h⟩ := bind_inv h
  obtain ⟨_, _, e1, h⟩ := bind_inv h
  obtain ⟨_, _, e2, h⟩ := bind_inv h
  obtain ⟨_, _, _, h⟩ := bind_inv h
  obtain ⟨_, _, _, h⟩ := bind_inv h
  obtain ⟨_, _, _, h⟩ := bind_inv h
  obtain ⟨_, _, _, h⟩ := bind_inv h
  obtain ⟨two, _, e3, h⟩ := bind_inv h
  obtain ⟨_, _, _, h⟩ := bind_inv h
  obtain ⟨_, _, _, h⟩ := bind_inv h
  obtain ⟨three, _, e4, h⟩ := bind_inv h
  obtain ⟨_, _, _, h⟩ := bind_inv h
  obtain ⟨_, _, _, h⟩ := bind_inv h
  obtain ⟨m, _, e5, h⟩ := bind_inv h
  obtain ⟨_, _, _, h⟩ := bind_inv h
  obtain ⟨h, -⟩ := pure_inv h
  have e1 := of_decide_eq_true (ensure_inv e1).1
  have e2 := of_decide_eq_true (ensure_inv e2).1
  obtain ⟨l2, -⟩ := zkLoop_needs _ _ _ _ _ _ _ _ _ _ _ _ _ _ e3
  obtain ⟨-, l3⟩ := zkLoop_needs _ _ _ _ _ _ _ _ _ _ _ _ _ _ e4
  have e5 := (orPanic_inv e5).1
  refine ⟨?_, ?_, ?_, ?_⟩
  · rw [← e2]
    simp only [tempVec, List.length_map, List.length_zipWith, evalEq_length, e1, min_self]
  · by_contra hc
    rw [constructMatrix, if_pos (by omega)] at e5
    cases e5
  · by_contra hc
    push Not at hc
    have := l3 (Nat.clog 2 ng - 1) (by omega)
    rw [lastBlind, if_neg (by omega)] at this
    cases this
  · simp only [Prod.mk.injEq] at h
    rw [← h.2.1.2.1]; exact l2

theorem layersProve_needs (ch : Oracle F G) (params : Params G) (c : Circuit) (n : Nat) (evals : List (List (List F)))
    (rands : Nat → ZkRand F) : ∀ k d (st : PSt F G) (tr tr' : Transcript F G) out, d + (k + 1) < c.depth →
      layersProve ch params c n evals rands (k + 1) d st tr = .ok (out, tr') → 1 ≤ Nat.clog 2 n ∧
        (∃ l, c.layers[c.depth - d - 1]? = some l ∧ l.gates.length = 2 ^ st.ql.length) ∧
        (∃ l, c.layers[c.depth - d - 2]? = some l ∧
          (Nat.clog 2 (padTo l.gatesCount) = 0 ∨ st.ql.length ≤ Nat.clog 2 (padTo l.gatesCount))) ∧
        ∀ j, d + 1 ≤ j → j < d + (k + 1) → ∃ l m, c.layers[c.depth - j - 1]? = some l ∧ c.layers[c.depth - j - 2]? = some m ∧
          l.gates.length = padTo l.gatesCount ∧ (Nat.clog 2 (padTo m.gatesCount) = 0 ∨
            Nat.clog 2 (padTo l.gatesCount) ≤ Nat.clog 2 (padTo m.gatesCount)) := by
  intro k
  induction k with
  | zero =>
    intro d st tr tr' out hd h
    unfold layersProve at h
    obtain ⟨next, _, g1, h⟩ := bind_inv h
    obtain ⟨_, _, _, h⟩ := bind_inv h
    obtain ⟨layer, _, g2, h⟩ := bind_inv h
    obtain ⟨⟨proof, ⟨rs, r0, r1⟩, x, y⟩, _, g3, h⟩ := bind_inv h
    obtain ⟨z1, z2, z3, z4⟩ := zkProve_needs _ _ _ _ _ _ _ _ _ _ _ _ _ _ _ _ _ _ _ _ _ _ _ g3
    exact ⟨z2, ⟨layer, (orPanic_inv g2).1, z1⟩, ⟨next, (orPanic_inv g1).1, z3⟩, fun j h1 h2 => by omega⟩
  | succ k ih =>
    intro d st tr tr' out hd h
    rw [layersProve] at h
    obtain ⟨next, _, g1, h⟩ := bind_inv h
    obtain ⟨_, _, _, h⟩ := bind_inv h
    obtain ⟨layer, _, g2, h⟩ := bind_inv h
    obtain ⟨⟨proof, ⟨rs, r0, r1⟩, x, y⟩, _, g3, h⟩ := bind_inv h
    obtain ⟨z1, z2, z3, z4⟩ := zkProve_needs _ _ _ _ _ _ _ _ _ _ _ _ _ _ _ _ _ _ _ _ _ _ _ g3
    refine ⟨z2, ⟨layer, (orPanic_inv g2).1, z1⟩, ⟨next, (orPanic_inv g1).1, z3⟩, ?_⟩
    have hnext : ∃ st' t t' o, st'.ql = r0 ∧
        layersProve ch params c n evals rands (k + 1) (d + 1) st' t = .ok (o, t') := by
      simp only at h
      by_cases hlt : d < c.depth - 2
      · simp only [if_pos hlt] at h
        obtain ⟨_, _, _, h⟩ := bind_inv h
        obtain ⟨_, _, _, h⟩ := bind_inv h
        obtain ⟨_, _, _, h⟩ := bind_inv h
        obtain ⟨_, _, h, _⟩ := bind_inv h
        exact ⟨_, _, _, _, rfl, h⟩
      · simp only [if_neg hlt] at h
        obtain ⟨_, _, h, _⟩ := bind_inv h
        exact ⟨_, _, _, _, rfl, h⟩
    obtain ⟨st', t, t', o, hq, hrun⟩ := hnext
    obtain ⟨-, ⟨l, i1, i2⟩, ⟨m, i3, i4⟩, i5⟩ := ih (d + 1) st' t t' o (by omega) hrun
    intro j h1 h2
    by_cases hj : j = d + 1
    · subst hj
      have hl : l = next := by
        have := (orPanic_inv g1).1
        rw [show c.depth - (d + 1) - 1 = c.depth - d - 2 by omega, this] at i1
        exact (Option.some.inj i1).symm
      subst hl
      rw [hq, z4] at i2 i4
      refine ⟨l, m, i1, i3, ?_, i4⟩
      rw [i2, padTo, Nat.clog_pow 2 _ (by decide)]
    · exact i5 j (by omega) (by omega)

theorem evalInstances_needs (c : Circuit) : ∀ (ps : List (List F × List F)) (tr tr' : Transcript F G) es,
    evalInstances c ps tr = .ok (es, tr') → es.length = ps.length ∧ ∀ (i : Nat) (p : List F × List F), ps[i]? = some p →
      ∃ e, es[i]? = some e ∧ c.evaluate p.1 p.2 = .ok e
  | [], tr, tr', es, h => by
    obtain ⟨rfl, -⟩ := pure_inv h
    simp
  | (i, w) :: ps, tr, tr', es, h => by
    unfold evalInstances at h
    obtain ⟨_, _, _, h⟩ := bind_inv h
    cases he : c.evaluate i w with
    | error => rw [he] at h; cases h
    | ok e =>
      rw [he] at h
      obtain ⟨_, _, _, h⟩ := bind_inv h
      obtain ⟨es', _, hes, h⟩ := bind_inv h
      obtain ⟨rfl, -⟩ := pure_inv h
      obtain ⟨h1, h2⟩ := evalInstances_needs c ps _ _ _ hes
      refine ⟨by simp [h1], fun j p hj => ?_⟩
      cases j with
      | zero => cases Option.some.inj hj; exact ⟨e, rfl, he⟩
      | succ j => exact h2 j p hj

theorem challenges_count {ch : Oracle F G} {l : String} {n : Nat} {rs : List F} {tr tr' : Transcript F G}
    (h : challenges ch l n tr = .ok (rs, tr')) : rs.length = n := by
  induction n generalizing rs tr tr' with
  | zero => obtain ⟨rfl, -⟩ := pure_inv h; rfl
  | succ n ih =>
    unfold challenges at h
    obtain ⟨_, _, _, h⟩ := bind_inv h
    obtain ⟨_, _, h1, h⟩ := bind_inv h
    obtain ⟨rfl, -⟩ := pure_inv h
    simp [ih h1]

theorem mapM_length {α β : Type} (f : α → Except Fail β) : ∀ (l : List α) (r : List β), l.mapM f = .ok r → r.length = l.length
  | [], r, h => by cases h; rfl
  | a :: l, r, h => by
    rw [List.mapM_cons] at h
    cases ha : f a with
    | error => rw [ha] at h; cases h
    | ok b =>
      cases hl : l.mapM f with
      | error => rw [ha, hl] at h; cases h
      | ok bs =>
        rw [ha, hl] at h
        cases h
        simp [mapM_length f l bs hl]

theorem evalLayers_lengths : ∀ (ls : List Layer) (prev : List F) (es : List (List F)), evalLayers ls prev = .ok es →
    es.map List.length = ls.map fun l => l.gates.length
  | [], _, es, h => by cases h; rfl
  | l :: ls, prev, es, h => by
    unfold evalLayers at h
    cases hv : l.gates.mapM (evalGate prev) with
    | error => rw [hv] at h; cases h
    | ok v =>
      rw [hv] at h
      change (evalLayers ls v >>= fun rest => pure (v :: rest)) = _ at h
      cases hr : evalLayers ls v with
      | error => rw [hr] at h; cases h
      | ok rest =>
        rw [hr] at h
        cases h
        simp [mapM_length _ _ _ hv, evalLayers_lengths ls v rest hr]

theorem evaluate_top (depth : Nat) (l0 l : Layer) (ls : List Layer) (i w : List F) (es : List (List F))
    (h : Circuit.evaluate ⟨depth, l0 :: (ls ++ [l])⟩ i w = .ok es) : (es.getLastD []).length = l.gates.length := by
  unfold Circuit.evaluate at h
  simp only at h
  cases hv : inputValues l0.bitSize i w with
  | error => rw [hv] at h; cases h
  | ok v =>
    cases hr : evalLayers (ls ++ [l]) v with
    | error => rw [hv] at h; simp only [bind, Except.bind, hr] at h; cases h
    | ok rest =>
      have hl := evalLayers_lengths _ _ _ hr
      rw [hv] at h
      simp only [bind, Except.bind, hr, pure, Except.pure] at h
      split at h
      · cases h
        rw [List.map_append] at hl
        have hl' := congrArg List.getLast? hl
        simp only [List.map_cons, List.map_nil, List.getLast?_append, List.getLast?_map, List.getLast?_singleton,
          Option.some_or] at hl'
        rw [List.getLastD_eq_getLast?, List.getLast?_cons]
        cases hg : rest.getLast? with
        | none => rw [hg] at hl'; cases hl'
        | some t =>
          rw [hg] at hl'
          simp only [Option.map_some, Option.some.injEq] at hl'
          simpa [List.getLastD_eq_getLast?, hg] using hl'
      · cases h

theorem tapers_of (raw : List (List (Nat × Nat × Nat))) : ∀ n, (∀ i r, raw[i]? = some r → (∃ k, r.length = 2 ^ k) ∧
    ((counts n raw).getD i 0 = 1 ∨ r.length ≤ (counts n raw).getD i 0)) → Tapers n raw := by
  induction raw with
  | nil => intro _ _; trivial
  | cons l ls ih =>
    intro n h
    obtain ⟨h1, h2⟩ := h 0 l rfl
    exact ⟨h1, h2, ih _ fun i r hr => h (i + 1) r hr⟩

/-- The shape of the circuit and the number of instances that `C86_partial` asks for are necessary: whatever the
parameters, challenges, random choices and instances, the prover panics for a single instance and for every other
shape of circuit. -/
theorem C86_shape (ch : Oracle F G) (params : Params G) (ni na : Nat) (raw : List (List (Nat × Nat × Nat))) (c : Circuit)
    (hc : Circuit.new ni na raw = .ok c) (hraw : raw ≠ []) (witnesses inputs : List (List F)) (n : Nat)
    (circuitHash paramHash : F) (rand : HyraxRand F) (tr tr' : Transcript F G) (out : HyraxProof F G × List (List F))
    (h : prove ch params witnesses inputs c circuitHash paramHash n rand tr = .ok (out, tr')) :
    (∃ logN, 1 ≤ logN ∧ n = 2 ^ logN) ∧ Tapers (2 * 2 ^ Nat.clog 2 (max na ni)) raw := by
  have hl := (C55_accepted ni na raw).1 ⟨c, hc⟩
  rw [new_eq ni na raw hl] at hc
  obtain rfl := (Except.ok.inj hc).symm
  obtain ⟨L, hL⟩ : ∃ L, raw.length = L + 1 := ⟨raw.length - 1, by
    have := List.length_pos_iff.2 hraw; omega⟩
  unfold prove at h
  obtain ⟨_, _, _, h⟩ := bind_inv h
  obtain ⟨_, _, _, h⟩ := bind_inv h
  obtain ⟨_, _, e1, h⟩ := bind_inv h
  obtain ⟨evals, _, e2, h⟩ := bind_inv h
  obtain ⟨_, _, e3, h⟩ := bind_inv h
  obtain ⟨_, _, e4, h⟩ := bind_inv h
  obtain ⟨_, _, _, h⟩ := bind_inv h
  obtain ⟨_, _, _, h⟩ := bind_inv h
  obtain ⟨⟨res, qa, ql⟩, _, e5, h⟩ := bind_inv h
  obtain ⟨_, _, _, h⟩ := bind_inv h
  obtain ⟨_, _, _, h⟩ := bind_inv h
  obtain ⟨_, _, e6, _⟩ := bind_inv h
  have e1 := of_decide_eq_true (ensure_inv e1).1
  have e3 := of_decide_eq_true (ensure_inv e3).1
  have e4 := of_decide_eq_true (ensure_inv e4).1
  rw [show raw.length + 1 - 1 = L + 1 by omega] at e6
  obtain ⟨z1, ⟨l, z2, z3⟩, ⟨m, z4, z5⟩, z6⟩ := layersProve_needs _ _ _ _ _ _ L 0 _ _ _ _
    (by simp only; omega) e6
  -- the outputs of the first instance
  obtain ⟨k1, k2⟩ := evalInstances_needs _ _ _ _ _ e2
  have hzl : 0 < ((inputs.zip witnesses).take n).length := by simp; omega
  obtain ⟨e, k3, k4⟩ := k2 0 _ (List.getElem?_eq_getElem hzl)
  have hql : ql.length = Nat.clog 2 (padTo (e.getLastD []).length) := by
    unfold evalOutputs at e5
    obtain ⟨o0, _, f1, e5⟩ := bind_inv e5
    obtain ⟨q, _, f2, e5⟩ := bind_inv e5
    obtain ⟨_, _, _, e5⟩ := bind_inv e5
    obtain ⟨_, _, _, e5⟩ := bind_inv e5
    obtain ⟨e5, -⟩ := pure_inv e5
    simp only [Prod.mk.injEq] at e5
    have f1 := (orPanic_inv f1).1
    rw [List.getElem?_map, k3] at f1
    have f1 : e.getLastD [] = o0 := Option.some.inj f1
    rw [f1, ← e5.2.2]
    exact challenges_count f2
  obtain ⟨raw', r, rfl⟩ : ∃ raw' r, raw = raw' ++ [r] := ⟨raw.dropLast, raw.getLast hraw, (List.dropLast_append_getLast hraw).symm⟩
  have htop := evaluate_top _ _ ⟨r.length, Nat.clog 2 (padTo r.length), gatesOf r⟩ (layersOf raw') _ _ _
    (by simpa [layersOf] using k4)
  have hg : ∀ r : List (Nat × Nat × Nat), (gatesOf r).length = r.length := fun r => by simp [gatesOf]
  simp only [hg] at htop
  simp only [List.length_append, List.length_singleton, Nat.add_right_cancel_iff] at hL
  -- the number of values of a layer
  obtain ⟨N, hN⟩ : ∃ N, N = 2 * 2 ^ Nat.clog 2 (max na ni) := ⟨_, rfl⟩
  have hin : (inputNew ni na).gatesCount = N := by rw [hN]; simp only [inputNew, padTo]; omega
  have hcount : ∀ i l, (inputNew ni na :: layersOf (raw' ++ [r]))[i]? = some l →
      l.gatesCount = (counts N (raw' ++ [r])).getD i 0 := by
    intro i l hi
    cases i with
    | zero => cases Option.some.inj hi; exact hin
    | succ i =>
      obtain ⟨r', hr, rfl⟩ := layers_get _ _ _ _ hi
      simp only [counts, List.getD_cons_succ]
      rw [List.getD_eq_getElem?_getD, List.getElem?_map, hr]; rfl
  have hcp : ∀ k, Nat.clog 2 (padTo k) = Nat.clog 2 k := fun k => by rw [padTo, Nat.clog_pow 2 _ (by decide)]
  simp only [List.length_append, List.length_singleton] at z2 z4 z6
  -- every layer
  have hlay : ∀ i r', (raw' ++ [r])[i]? = some r' → (∃ k, r'.length = 2 ^ k) ∧
      (Nat.clog 2 ((counts N (raw' ++ [r])).getD i 0) = 0 ∨
        Nat.clog 2 r'.length ≤ Nat.clog 2 ((counts N (raw' ++ [r])).getD i 0)) := by
    intro i r' hr
    have hi := (List.getElem?_eq_some_iff.1 hr).1
    simp only [List.length_append, List.length_singleton] at hi
    have hlayer : (inputNew ni na :: layersOf (raw' ++ [r]))[i + 1]? =
        some ⟨r'.length, Nat.clog 2 (padTo r'.length), gatesOf r'⟩ := by
      rw [List.getElem?_cons_succ, layersOf, List.getElem?_map, hr]; rfl
    by_cases hit : i = L
    · subst hit
      rw [show raw'.length + 1 + 1 - 0 - 1 = i + 1 by omega, hlayer] at z2
      cases Option.some.inj z2
      rw [show raw'.length + 1 + 1 - 0 - 2 = i by omega] at z4
      have hc := hcount _ _ z4
      rw [hcp, hc] at z5
      simp only [hg] at z3
      refine ⟨⟨_, z3⟩, z5.imp_right fun h => ?_⟩
      rw [z3, Nat.clog_pow 2 _ (by decide)]; exact h
    · obtain ⟨a, b, y1, y2, y3, y4⟩ := z6 (L - i) (by omega) (by omega)
      rw [show raw'.length + 1 + 1 - (L - i) - 1 = i + 1 by omega, hlayer] at y1
      cases Option.some.inj y1
      rw [show raw'.length + 1 + 1 - (L - i) - 2 = i by omega] at y2
      simp only [hg] at y3
      rw [hcp, hcp, hcount _ _ y2] at y4
      exact ⟨⟨_, y3⟩, y4⟩
  refine ⟨⟨Nat.clog 2 n, z1, e3.symm⟩, ?_⟩
  rw [← hN]
  refine tapers_of _ _ fun i r' hr => ?_
  obtain ⟨⟨b, hb⟩, h2⟩ := hlay i r' hr
  refine ⟨⟨b, hb⟩, ?_⟩
  obtain ⟨a, ha⟩ : ∃ a, (counts N (raw' ++ [r])).getD i 0 = 2 ^ a := by
    cases i with
    | zero => exact ⟨Nat.clog 2 (max na ni) + 1, by simp only [counts, List.getD_cons_zero, hN, pow_succ]; omega⟩
    | succ i =>
      have hi := (List.getElem?_eq_some_iff.1 hr).1
      obtain ⟨⟨a, ha⟩, -⟩ := hlay i _ (List.getElem?_eq_getElem (by omega : i < (raw' ++ [r]).length))
      refine ⟨a, ?_⟩
      simp only [counts, List.getD_cons_succ]
      rw [List.getD_eq_getElem?_getD, List.getElem?_map, List.getElem?_eq_getElem (by omega)]
      exact ha
  rw [ha, hb, Nat.clog_pow 2 _ (by decide), Nat.clog_pow 2 _ (by decide)] at h2
  rw [ha, hb]
  rcases h2 with rfl | h2
  · left; rfl
  · right; exact Nat.pow_le_pow_right (by decide) h2

/-! ### The full claim and why it is false -/

/-- The full claim: for every circuit that `Circuit::new` accepts and every power of two of instances with the declared
numbers of inputs and witness values the prover succeeds and the verifier accepts its proof. -/
def C86_statement (F G : Type) [Field F] [AddCommGroup G] [Module F G] [DecidableEq F] [DecidableEq G] : Prop :=
  ∀ (ch : Oracle F G), (∀ t, ch (t ++ [.chal "x"]) ≠ 0) → ∀ (num : Nat) (r : ParamRand G) (ni na : Nat)
    (raw : List (List (Nat × Nat × Nat))) (c : Circuit), Circuit.new ni na raw = .ok c → raw ≠ [] →
    ∀ (ps : List (List F × List F)) (logN : Nat), ps.length = 2 ^ logN →
      (∀ p ∈ ps, p.1.length = ni ∧ p.2.length = na) → logN + Nat.clog 2 (max na ni) ≤ num →
    ∀ (circuitHash paramHash : F) (rand : HyraxRand F), rand.witness.length = 2 ^ ((logN + Nat.clog 2 na) / 2) →
      num ≤ rand.in0.bullet.length → num ≤ rand.in1.bullet.length → ∀ tr : Transcript F G,
    ∃ proof outputs tr',
      prove ch (paramsNew num r) (ps.map Prod.snd) (ps.map Prod.fst) c circuitHash paramHash (2 ^ logN) rand tr =
        .ok ((proof, outputs), tr') ∧
      verify ch (paramsNew num r) proof outputs (ps.map Prod.fst) c circuitHash paramHash tr = .ok ((), tr')

/-- Random scalars for the examples. -/
def exZkRand (s : Nat) : ZkRand F17 :=
  ⟨fun j => ((3 * j + s : Nat) : F17), fun j => ((5 * j + s : Nat) : F17), 2, 3, 4, 5, 6, 7, 8, 9,
    fun j => ((7 * j + 2 + s : Nat) : F17), fun j => ((j * j + s : Nat) : F17), 11⟩

/-- The same for a whole proof, with `w` rows of the witness. -/
def exRand (w : Nat) : HyraxRand F17 :=
  ⟨(List.range w).map fun i => ((i + 3 : Nat) : F17), exZkRand, ⟨1, 2, 3, 4, [(5, 6), (7, 8), (1, 1)], 9⟩,
    ⟨3, 2, 3, 4, [(5, 6), (7, 8), (1, 1)], 9⟩⟩

/-- Random points of the parameters for the examples. -/
def exPoints : ParamRand F17 :=
  ⟨fun i => ((i + 4 : Nat) : F17), 3, 2, fun i => ((3 * i + 2 : Nat) : F17), 5, fun i => ((2 * i + 5 : Nat) : F17), 9⟩

/-- A challenge function without zeros for the examples. -/
def exChal : Oracle F17 F17 := fun tr => ((3 * tr.length % 16 + 1 : Nat) : F17)

theorem exChal_ne (tr : Transcript F17 F17) : exChal tr ≠ 0 := by
  unfold exChal
  have h : 3 * tr.length % 16 < 16 := Nat.mod_lt _ (by decide)
  intro h0
  rw [ZMod.natCast_eq_zero_iff] at h0
  exact absurd (Nat.le_of_dvd (by omega) h0) (by omega)

/-- The prover succeeds and the verifier rejects. -/
def rejected (ni na : Nat) (raw : List (List (Nat × Nat × Nat))) (witnesses inputs : List (List F17)) : Bool :=
  match Circuit.new ni na raw with
  | .error _ => false
  | .ok c =>
    match prove exChal (paramsNew 3 exPoints) witnesses inputs c 1 2 2 (exRand 2) [] with
    | .error _ => false
    | .ok ((p, o), _) =>
      match verify exChal (paramsNew 3 exPoints) p o inputs c 1 2 [] with
      | .ok _ => false
      | .error _ => true

theorem rejected_inv {ni na : Nat} {raw : List (List (Nat × Nat × Nat))} {witnesses inputs : List (List F17)}
    (h : rejected ni na raw witnesses inputs = true) : ∃ c, Circuit.new ni na raw = .ok c ∧ ∃ proof outputs tr',
      prove exChal (paramsNew 3 exPoints) witnesses inputs c 1 2 2 (exRand 2) [] = .ok ((proof, outputs), tr') ∧
      ∃ e, verify exChal (paramsNew 3 exPoints) proof outputs inputs c 1 2 [] = .error e := by
  unfold rejected at h
  split at h
  · cases h
  · rename_i c hc
    split at h
    · cases h
    · rename_i p o tr' hp
      split at h
      · cases h
      · rename_i e he
        exact ⟨c, hc, p, o, tr', hp, e, he⟩

/-- Four public inputs and three witness values: the proof of the honest prover is rejected. -/
theorem C86_lengths : ∃ c, Circuit.new 4 3 [[(0, 0, 1), (1, 2, 3), (1, 4, 5), (1, 6, 7)], [(1, 0, 1)]] = .ok c ∧
    ∃ proof outputs tr', prove exChal (paramsNew 3 exPoints) [[5, 6, 1], [6, 2, 1]] [[3, 4, 5, 6], [4, 5, 1, 2]] c 1 2 2
        (exRand 2) [] = .ok ((proof, outputs), tr') ∧
      ∃ e, verify exChal (paramsNew 3 exPoints) proof outputs [[3, 4, 5, 6], [4, 5, 1, 2]] c 1 2 [] = .error e :=
  rejected_inv (by decide +kernel)

/-- A single instance: the prover panics, whatever the circuit. -/
theorem C86_single (ch : Oracle F G) (params : Params G) (ni na : Nat) (raw : List (List (Nat × Nat × Nat))) (c : Circuit)
    (hc : Circuit.new ni na raw = .ok c) (hraw : raw ≠ []) (witnesses inputs : List (List F)) (circuitHash paramHash : F)
    (rand : HyraxRand F) (tr : Transcript F G) :
    ∃ e, prove ch params witnesses inputs c circuitHash paramHash 1 rand tr = .error e := by
  cases h : prove ch params witnesses inputs c circuitHash paramHash 1 rand tr with
  | error e => exact ⟨e, rfl⟩
  | ok o =>
    obtain ⟨⟨logN, h1, h2⟩, -⟩ := C86_shape ch params ni na raw c hc hraw _ _ _ _ _ _ _ _ _ h
    exact absurd h2 (Nat.one_lt_two_pow (by omega)).ne

theorem exShape (raw : List (List (Nat × Nat × Nat))) (h : ¬Tapers (2 * 2 ^ Nat.clog 2 (max 2 2)) raw) (c : Circuit)
    (hc : Circuit.new 2 2 raw = .ok c) (hraw : raw ≠ []) (out) (tr' : Transcript F17 F17) :
    prove exChal (paramsNew 2 exPoints) [[5, 6], [6, 7]] [[3, 4], [4, 5]] c 1 2 2 (exRand 2) [] ≠ .ok (out, tr') :=
  fun hp => h (C86_shape _ _ _ _ _ _ hc hraw _ _ _ _ _ _ _ _ _ hp).2

/-- A layer of three gates, and a layer of two gates below one of four: legal circuits for which the prover panics. -/
example : (∃ c, Circuit.new 2 2 [[(0, 0, 1), (1, 2, 3), (0, 1, 1)], [(1, 0, 1)]] = .ok c ∧ ∀ out tr',
      prove exChal (paramsNew 2 exPoints) [[5, 6], [6, 7]] [[3, 4], [4, 5]] c 1 2 2 (exRand 2) [] ≠ .ok (out, tr')) ∧
    ∃ c, Circuit.new 2 2 [[(0, 0, 1), (1, 2, 3)], [(1, 0, 1), (0, 1, 1), (0, 0, 0), (1, 1, 1)]] = .ok c ∧ ∀ out tr',
      prove exChal (paramsNew 2 exPoints) [[5, 6], [6, 7]] [[3, 4], [4, 5]] c 1 2 2 (exRand 2) [] ≠ .ok (out, tr') := by
  have hk : Nat.clog 2 (max 2 2) = 1 := by decide
  constructor
  · obtain ⟨c, hc⟩ := (C55_accepted 2 2 [[(0, 0, 1), (1, 2, 3), (0, 1, 1)], [(1, 0, 1)]]).2 (by
      rw [hk]; simp [LegalLayers, Legal])
    refine ⟨c, hc, fun out tr' => exShape _ ?_ c hc (by simp) out tr'⟩
    rintro ⟨⟨k, h⟩, -⟩
    rcases k with _ | _ | k
    · simp at h
    · simp at h
    · simp only [List.length_cons, List.length_nil, pow_succ] at h; omega
  · obtain ⟨c, hc⟩ := (C55_accepted 2 2 [[(0, 0, 1), (1, 2, 3)], [(1, 0, 1), (0, 1, 1), (0, 0, 0), (1, 1, 1)]]).2 (by
      rw [hk]; simp [LegalLayers, Legal])
    refine ⟨c, hc, fun out tr' => exShape _ ?_ c hc (by simp) out tr'⟩
    simp [Tapers]

theorem C86_statement_false : ¬C86_statement F17 F17 := by
  intro h
  obtain ⟨c, hc⟩ := (C55_accepted 2 2 [[(1, 0, 1)]]).2 (by
    have hk : Nat.clog 2 (max 2 2) = 1 := by decide
    rw [hk]; simp [LegalLayers, Legal])
  have hk : Nat.clog 2 2 = 1 := by decide
  obtain ⟨proof, outputs, tr', hp, -⟩ := h exChal (fun t => exChal_ne _) 2 exPoints 2 2 _ c hc (by simp) [([3, 4], [5, 6])] 0
    rfl (by simp) (by simp [hk]) 1 2 (exRand 1) (by simp [exRand, hk]) (by simp [exRand]) (by simp [exRand]) []
  obtain ⟨e, he⟩ := C86_single exChal (paramsNew 2 exPoints) 2 2 _ c hc (by simp) [[5, 6]] [[3, 4]] 1 2 (exRand 1) []
  have hp' : prove exChal (paramsNew 2 exPoints) [[5, 6]] [[3, 4]] c 1 2 1 (exRand 1) [] = .ok ((proof, outputs), tr') := hp
  rw [he] at hp'
  cases hp'

/-- Two layers over three public inputs and three witness values, two instances. -/
example : ∃ c, Circuit.new 3 3 [[(0, 0, 1), (1, 2, 4)], [(1, 0, 1)]] = .ok c ∧ ∃ proof tr',
    prove exChal (paramsNew 3 exPoints) [[5, 6, 7], [6, 2, 3]] [[3, 4, 5], [4, 5, 1]] c 1 2 2 (exRand 2) [] =
      .ok ((proof, [[11 * 7 * 3], [8 * 3 * 4]]), tr') ∧
    verify exChal (paramsNew 3 exPoints) proof [[11 * 7 * 3], [8 * 3 * 4]] [[3, 4, 5], [4, 5, 1]] c 1 2 [] =
      .ok ((), tr') := by
  have hk : Nat.clog 2 (max 3 3) = 2 := by decide
  have hk' : Nat.clog 2 3 = 2 := by decide
  obtain ⟨c, hc⟩ := (C55_accepted 3 3 [[(0, 0, 1), (1, 2, 4)], [(1, 0, 1)]]).2 (by rw [hk]; simp [LegalLayers, Legal])
  refine ⟨c, hc, ?_⟩
  have := C86_partial (F := F17) (G := F17) (by decide) (by decide) exChal (fun t => exChal_ne _) 3 exPoints 3 3 _ c hc (by simp) 2
    hk.symm ⟨⟨1, rfl⟩, Or.inr (by simp), ⟨0, rfl⟩, Or.inr (by simp), trivial⟩
    [([3, 4, 5], [5, 6, 7]), ([4, 5, 1], [6, 2, 3])] 1 le_rfl rfl (by simp [hk']) (by simp) 1 2 (exRand 2) (by simp [exRand])
    (by simp [exRand]) (by simp [exRand]) []
  exact this

end Zkp.Hx
