/- C53: with the comparison of each layer's claim that the code lacks, Hyrax's verifier is sound. -/
import Verif.Proof.HyraxSoundRun
import Verif.Proof.SnarkCausal
import Verif.Props.HyraxComplete
import Verif.Props.LibraZkSound

namespace Zkp.Hx

open Zkp.Ml Zkp.Spartan Zkp.Sc Zkp.Gkr
open Zkp.Lz (inputTable wit_pack)
open Zkp.Cp (packCommit bind_inv say_inv challenge_inv ensure_inv orPanic_inv pure_inv)

set_option linter.unusedSectionVars false
set_option linter.unusedSimpArgs false

variable {F : Type} [Field F] {G : Type} [AddCommGroup G] [Module F G] [DecidableEq F] [DecidableEq G]

/-! ### The start of the transcript -/

/-- Only field elements have been sent. -/
def Plain (t : Transcript F G) : Prop := ∀ m ∈ t, (∃ l x, m = .fr l x) ∨ ∃ l x, m = .frs l x

theorem Plain.said {t : Transcript F G} (h : Plain t) : Sc.said t = [] := by
  induction t with
  | nil => rfl
  | cons m t ih =>
    have := ih fun x hx => h x (List.mem_cons_of_mem _ hx)
    rcases h m (by simp) with ⟨l, x, rfl⟩ | ⟨l, x, rfl⟩ <;> exact this

theorem Plain.drawn {t : Transcript F G} (h : Plain t) (ch : Oracle F G) (pre : Transcript F G) : drawnFrom ch pre t = [] := by
  induction t generalizing pre with
  | nil => rfl
  | cons m t ih =>
    have := ih (fun x hx => h x (List.mem_cons_of_mem _ hx)) (pre ++ [m])
    rcases h m (by simp) with ⟨l, x, rfl⟩ | ⟨l, x, rfl⟩ <;> exact this

theorem Plain.first {t : Transcript F G} (h : Plain t) (l : String) (w : List G) (r : Transcript F G) :
    firstPts (t ++ (.pts l w :: r)) = w := by
  induction t with
  | nil => rfl
  | cons m t ih =>
    have := ih fun x hx => h x (List.mem_cons_of_mem _ hx)
    rcases h m (by simp) with ⟨l, x, rfl⟩ | ⟨l, x, rfl⟩ <;> exact this

theorem sayInstances_inv (os : List (List F)) : ∀ (is : List (List F)) (tr tr' : Transcript F G),
    (sayInstances is os : Vf F G Unit) tr = .ok ((), tr') → Plain tr → os.length ≤ is.length ∧ Plain tr' := by
  induction os with
  | nil =>
    intro is tr tr' h hp
    rw [sayInstances] at h
    obtain ⟨_, rfl⟩ := pure_inv h
    exact ⟨Nat.zero_le _, hp⟩
  | cons o os ih =>
    intro is tr tr' h hp
    cases is with
    | nil => rw [sayInstances] at h; cases h
    | cons i is =>
      rw [sayInstances] at h
      obtain ⟨_, t1, h1, h⟩ := bind_inv h
      obtain ⟨_, t2, h2, h⟩ := bind_inv h
      have e1 := say_inv h1
      have e2 := say_inv h2
      obtain ⟨a, b⟩ := ih is t2 tr' h (by
        rw [← e2, ← e1]
        intro m hm
        simp only [List.mem_append, List.mem_singleton] at hm
        rcases hm with (hm | rfl) | rfl
        · exact hp m hm
        · exact Or.inr ⟨_, _, rfl⟩
        · exact Or.inr ⟨_, _, rfl⟩)
      exact ⟨by simpa using a, b⟩

/-! ### The statement -/

/-- The generators have no linear relation; the generator for scalars and the one for blinding are shared, as
`paramsNew` does it. -/
structure GoodHx (F : Type) [Field F] [Module F G] (params : Params G) : Prop where
  shared : params.pc.gen1 = params.gen1
  blind : params.pc.genN.h = params.gen1.h
  one : params.gen1.generators.length = 1
  three : params.gen3.generators.length = 3
  four : params.gen4.generators.length = 4
  indep : Independent F (params.gen1.h :: (params.gen1.generators ++ params.pc.genN.generators))
  indep3 : Independent F (params.gen3.h :: params.gen3.generators)
  indep4 : Independent F (params.gen4.h :: params.gen4.generators)

/-- The part of the committed table that belongs to instance `i`. -/
def part (k : Nat) (w : List F) (i : Nat) : List F := (w.drop (i * 2 ^ k)).take (2 ^ k)

/-- The values of the input layer of instance `i`: its part of the witness and, filled up with zeros, its public inputs. -/
def bottom (k : Nat) (w : List F) (inputs : List (List F)) (i : Nat) : List F :=
  inputTable k (part k w i) (inputs.getD i [])

/-- The difference between the claimed outputs of instance `i` and those of the circuit. -/
def outGap (raw : List (List (Nat × Nat × Nat))) (m : Nat) (outputs v0s : List (List F)) (i : Nat) : List F :=
  (List.range (2 ^ m)).map fun j => (outputs.getD i []).getD j 0 - (paddedTop (v0s.getD i []) raw).getD j 0

/-- The bad challenges of a run of the verifier, given the values of the input layers. -/
noncomputable def badAll (φ φ3 φ4 : Nat → G →ₗ[F] F) (S : Submodule F G) (raw : List (List (Nat × Nat × Nat)))
    (logN k m : Nat) (dl : Nat → Nat) (outputs v0s : List (List F)) (k0 k1 : Nat) : List G → List F → Finset F :=
  after m 0 (fun _ vs => badOut (outGap raw m outputs v0s (Classical.epsilon fun i => i < 2 ^ logN ∧ ∃ j, (outGap raw m outputs v0s i).getD j 0 ≠ 0)) vs)
    fun _ q =>
  after logN 1 (fun _ vs => badOut ((List.range (2 ^ logN)).map fun i => mle (outGap raw m outputs v0s i) q) vs) fun a qa =>
  badLayers φ φ3 φ4 S logN (k + 1) dl raw v0s
    (fun qa ql qr => after (k0 + 2) (2 * k0 + 7) (badIn φ k0 qa ql) fun _ _ => badIn φ k1 qa qr)
    raw.length 0 qa q q 1 0 (φ 0 (a.getD 0 0))

theorem badAll_card (φ φ3 φ4 : Nat → G →ₗ[F] F) (S : Submodule F G) (raw : List (List (Nat × Nat × Nat)))
    (logN k m : Nat) (dl : Nat → Nat) (outputs v0s : List (List F)) (k0 k1 : Nat) (ps : List G) (vs : List F) :
    (badAll φ φ3 φ4 S raw logN k m dl outputs v0s k0 k1 ps vs).card ≤ 6 :=
  after_card (fun _ _ => (fewRoots_card 1 _).trans (by omega)) (fun _ _ => after_card
    (fun _ _ => (fewRoots_card 1 _).trans (by omega)) fun _ _ => badLayers_card φ φ3 φ4 S logN (k + 1) dl raw v0s _
      (fun _ _ _ => after_card (badIn_card φ _ _ _) fun _ _ => badIn_card φ _ _ _) _ _ _ _ _ _ _ _) _ _

/-- The number of challenges for `2 ^ logN` instances: one for each bit of the index of an output and of an instance, for
each layer two for each bit of an instance, four for each bit of the index of a value below and five more, and for the input
layer those of the two proofs, which have `k0` and `k1` rounds. -/
def hxChallenges (logN k m : Nat) (raw : List (List (Nat × Nat × Nat))) (k0 k1 : Nat) : Nat :=
  m + logN + layersChal logN (k + 1) raw raw.length + k0 + k1 + 2

theorem legal_at (raw : List (List (Nat × Nat × Nat))) (k0 : Nat) (h : LegalLayers (2 ^ k0) raw) :
    ∀ i < raw.length, ∀ g ∈ raw.getD i [], Legal (2 ^ bitsAt k0 raw i) g := by
  induction raw generalizing k0 with
  | nil => intro i hi; cases hi
  | cons l ls ih =>
    intro i hi
    cases i with
    | zero => exact h.1
    | succ i =>
      have := ih (Nat.clog 2 (padTo l.length)) (legalLayers_mono (le_padTo _) _ h.2) i (by simpa using hi)
      cases i with
      | zero => exact this
      | succ i => exact this

theorem part_length (k logN : Nat) (w : List F) (hw : w.length = 2 ^ (logN + k)) (i : Nat) (hi : i < 2 ^ logN) :
    (part k w i).length = 2 ^ k := by
  have : i * 2 ^ k + 2 ^ k ≤ 2 ^ (logN + k) := by
    rw [pow_add, ← Nat.succ_mul]; exact Nat.mul_le_mul_right _ hi
  unfold part
  rw [List.length_take, List.length_drop, hw]
  omega

/-- The tables of the input layer, evaluated: the witness and the inputs. -/
theorem tabs_bottom (k logN : Nat) (w : List F) (hw : w.length = 2 ^ (logN + k)) (inputs : List (List F))
    (hin : ∀ v ∈ inputs, padTo v.length = 2 ^ k) (qa : List F) (q0 : F) (qs : List F) (hqa : qa.length = logN) (hqs : qs.length = k) :
    tabs ((List.range (2 ^ logN)).map (bottom k w inputs)) qa (q0 :: qs) =
      (1 - q0) * mle w (qa ++ qs) + q0 * mle (inputVec (inputs.take (2 ^ logN))) (qa ++ qs) := by
  unfold tabs
  rw [List.map_map]
  have e : (List.range (2 ^ logN)).map ((fun t => mle t (q0 :: qs)) ∘ bottom k w inputs) =
      (List.range (2 ^ logN)).map fun i => (1 - q0) * mle (part k w i) qs + q0 * mle (inputs.getD i []) qs := by
    apply List.map_congr_left
    intro i hi
    simp only [Function.comp, bottom, inputTable]
    have hl := part_length k logN w hw i (List.mem_range.1 hi)
    rw [mle_cons, hqs, List.take_left' hl, List.drop_left' hl, mle_padded]
  rw [e, mle_combo, mle_inputVec _ _ _ (by
    rw [hqs]; exact fun v hv => hin v (List.mem_of_mem_take hv))]
  congr 2
  · rw [Cp.mle_append, hqs, hqa]
    unfold mle
    rw [hqa]
    refine Finset.sum_congr rfl fun i hi => ?_
    rw [getD_map_range _ _ (Finset.mem_range.1 hi), hqs, Finset.sum_mul]
    refine Finset.sum_congr rfl fun j hj => ?_
    have : (part k w i).getD j 0 = w.getD (i * 2 ^ k + j) 0 := by
      unfold part
      rw [List.getD_eq_getElem?_getD, List.getElem?_take, if_pos (Finset.mem_range.1 hj), List.getElem?_drop,
        List.getD_eq_getElem?_getD]
    rw [this]
    ring
  · apply mle_congr
    intro i hi
    rw [hqa] at hi
    rw [getD_map_range _ _ hi, getD_map_mle]
    congr 1
    rw [List.getD_eq_getElem?_getD, List.getD_eq_getElem?_getD, List.getElem?_take, if_pos hi]

theorem zip_mle_le (v q : List F) (h : v.length ≤ 2 ^ q.length) : (List.zipWith (· * ·) v (evalEq q)).sum = mle v q := by
  have := evalValue_eq v q h
  unfold evalValue at this
  rw [if_pos (by rw [evalEq_length]; exact h)] at this
  exact Option.some.inj this

theorem evalOutputs_inv {ch : Oracle F G} {outputs : List (List F)} {logN : Nat} (hn : outputs.length = 2 ^ logN)
    {res : F} {qa q : List F} {tr tr' : Transcript F G} (h : evalOutputs ch outputs tr = .ok ((res, qa, q), tr')) :
    ∃ tr1, challenges ch "challenge_nextround" (Nat.clog 2 (padTo (outputs.getD 0 []).length)) tr = .ok (q, tr1) ∧
      challenges ch "challenge_nextround" logN tr1 = .ok (qa, tr') ∧ res = tabs outputs qa q ∧
      ∀ o ∈ outputs, o.length ≤ 2 ^ q.length := by
  unfold evalOutputs at h
  obtain ⟨o0, _, h1, h⟩ := bind_inv h
  obtain ⟨ho0, rfl⟩ := orPanic_inv h1
  obtain ⟨q', tr1, h2, h⟩ := bind_inv h
  obtain ⟨_, _, h3, h⟩ := bind_inv h
  obtain ⟨h3', rfl⟩ := ensure_inv h3
  obtain ⟨qa', tr2, h4, h'⟩ := bind_inv h
  clear h
  obtain ⟨h5, rfl⟩ := pure_inv h'
  obtain ⟨e1, e2, e3⟩ : _ ∧ qa' = qa ∧ q' = q := by simpa using h5
  subst e2 e3
  rw [getD_of_some ho0]
  rw [hn, padTo_two_pow, Nat.clog_pow 2 _ (by decide)] at h4
  obtain ⟨-, l1⟩ := challenges_at h2
  obtain ⟨-, l2⟩ := challenges_at h4
  have hle : ∀ o ∈ outputs, o.length ≤ 2 ^ q'.length := by
    intro o ho
    have := List.all_eq_true.1 h3' o ho
    simp only [decide_eq_true_eq] at this
    rw [l1]
    exact this.trans (Nat.le_pow_clog (by decide) _)
  refine ⟨tr1, h2, h4, ?_, hle⟩
  have : (outputs.map fun o => (List.zipWith (· * ·) o (evalEq q')).sum) = outputs.map fun o => mle o q' :=
    List.map_congr_left fun o h => zip_mle_le o q' (hle o h)
  rw [← e1, this, zip_mle_le _ _ (by rw [List.length_map, hn, l2])]
  rfl

theorem mle_outGap (raw : List (List (Nat × Nat × Nat))) (m : Nat) (outputs v0s : List (List F)) (i : Nat) (q : List F) (hq : q.length = m) :
    mle (outGap raw m outputs v0s i) q = mle (outputs.getD i []) q - mle (paddedTop (v0s.getD i []) raw) q := by
  unfold mle
  rw [← Finset.sum_sub_distrib]
  apply Finset.sum_congr rfl
  intro j hj
  rw [outGap, getD_map_range _ _ (by rw [← hq]; exact Finset.mem_range.1 hj)]
  ring

set_option maxHeartbeats 3200000 in
/-- For every circuit accepted at construction with at least one layer of gates, `2 ^ logN ≥ 2` instances, all public
inputs, whose lists fill up half of the input layer when they are filled up to a power of two, all outputs and all lengths
of the lists in the proof that the verifier does not prescribe, there are a function that reads the witnesses from their
commitment and sets of at most six field elements, one for every state of the transcript and the challenges so far, such
that for every hash function and every proof that the repaired verifier accepts: the outputs of every instance are, up to
trailing zeros, what the circuit computes from the witness read for that instance and its public inputs, or some challenge
fell in the set of that moment. The number of challenges is fixed. Reading inverts committing.

Partial: this is `C53` for the verifier with the comparison of `comm_a0` with the claim, which the code lacks; without it the
statement is false (`C53_violated`). -/
theorem C53_sound_partial (params : Params G) (hp : GoodHx F params) (ni na : Nat) (raw : List (List (Nat × Nat × Nat)))
    (c : Circuit) (hc : Circuit.new ni na raw = .ok c) (hne : raw ≠ []) (k : Nat) (hk : k = Nat.clog 2 (max na ni))
    (logN : Nat) (hN : 1 ≤ logN) (inputs outputs : List (List F)) (hno : outputs.length = 2 ^ logN)
    (hin : ∀ v ∈ inputs, padTo v.length = 2 ^ k) (dl : Nat → Nat) (k0 k1 : Nat) :
    ∃ (ext : List G → List F) (bad : Transcript F G → List F → Finset F),
      (∀ t vs, (bad t vs).card ≤ 6) ∧ (∀ com, (ext com).length = 2 ^ (logN + k)) ∧
      (∀ w blinds com t t', w.length = 2 ^ (logN + k) → 2 ^ (logN + k - (logN + k) / 2) ≤ params.pc.genN.generators.length →
        packCommit params.pc.genN.generators params.pc.genN.h w blinds t = .ok (com, t') → ext com = w) ∧
      ∀ (ch : Oracle F G) (circuitHash paramHash : F) (proof : HyraxProof F G) (tr' : Transcript F G),
        proof.prod0.L.length = k0 → proof.prod1.L.length = k1 →
        (∀ d p, proof.proofs[d]? = some p → p.deltas.length = dl d) →
        verifyChecked ch params proof outputs inputs c circuitHash paramHash [] = .ok ((), tr') →
        numChal tr' = hxChallenges logN k (Nat.clog 2 (padTo (outputs.getD 0 []).length)) raw k0 k1 ∧
        ((∀ i < 2 ^ logN, ∀ j, (outputs.getD i []).getD j 0 =
            (topValues (bottom k (ext proof.witness) inputs i) raw).getD j 0) ∨
          Hit ch bad [] tr') := by
  have hl := (C55_accepted ni na raw).1 ⟨c, hc⟩
  rw [new_eq ni na raw hl] at hc
  obtain rfl := (Except.ok.inj hc).symm
  have hbit : Nat.clog 2 (padTo (inputNew ni na).gatesCount) = k + 1 := by
    rw [inputNew_count, padTo_two_pow, Nat.clog_pow 2 _ (by decide), inputNew_bitSize, hk]
  rw [← hk, show 2 * 2 ^ k = 2 ^ (k + 1) by rw [pow_succ]; omega] at hl
  obtain ⟨u, hu⟩ := List.length_eq_one_iff.1 hp.one
  obtain ⟨φ, hφ⟩ := hp.indep.reads
  obtain ⟨φ3, hφ3⟩ := hp.indep3.reads
  obtain ⟨φ4, hφ4⟩ := hp.indep4.reads
  rw [hu] at hφ
  obtain ⟨m, hm⟩ : ∃ m, m = Nat.clog 2 (padTo (outputs.getD 0 []).length) := ⟨_, rfl⟩
  rw [← hm]
  obtain ⟨S, hS⟩ : ∃ S, S = Submodule.span F {u, params.gen1.h} := ⟨_, rfl⟩
  refine ⟨wit φ (logN + k), fun t vs => badAll φ φ3 φ4 S raw logN k m dl outputs
    ((List.range (2 ^ logN)).map (bottom k (wit φ (logN + k) (firstPts t)) inputs)) k0 k1 (said t) vs,
    fun t vs => badAll_card _ _ _ _ _ _ _ _ _ _ _ _ _ _ _, wit_length φ _, fun w blinds com t t' hw hg h => ?_, ?_⟩
  · rw [hp.blind] at h
    exact wit_pack hφ _ w blinds hw hg com t t' h
  intro ch circuitHash paramHash proof tr' hk0 hk1 hdl hrun
  unfold verifyChecked at hrun
  obtain ⟨_, ta, g1, hrun⟩ := bind_inv hrun
  obtain ⟨_, tb, g2, hrun⟩ := bind_inv hrun
  obtain ⟨_, _, g3, hrun⟩ := bind_inv hrun
  obtain ⟨_, rfl⟩ := ensure_inv g3
  obtain ⟨_, _, g4, hrun⟩ := bind_inv hrun
  obtain ⟨_, rfl⟩ := ensure_inv g4
  obtain ⟨_, tc, g5, hrun⟩ := bind_inv hrun
  obtain ⟨_, td, g6, hrun⟩ := bind_inv hrun
  obtain ⟨⟨res, qa, q⟩, te, g7, hrun⟩ := bind_inv hrun
  obtain ⟨_, tf, g8, hrun⟩ := bind_inv hrun
  obtain ⟨_, _, g9, hrun⟩ := bind_inv hrun
  obtain ⟨_, rfl⟩ := ensure_inv g9
  obtain ⟨st, tg, g10, hrun⟩ := bind_inv hrun
  obtain ⟨_, th, g11, g12⟩ := bind_inv hrun
  have e1 := say_inv g1
  have e2 := say_inv g2
  have e6 := say_inv g6
  have e8 := say_inv g8
  obtain ⟨hil, hplain⟩ := sayInstances_inv outputs inputs _ tc g5 (by
    rw [← e2, ← e1]
    intro x hx
    simp only [List.mem_append, List.mem_singleton, List.not_mem_nil, false_or] at hx
    rcases hx with rfl | rfl
    · exact Or.inl ⟨_, _, rfl⟩
    · exact Or.inl ⟨_, _, rfl⟩)
  rw [hno] at hil
  obtain ⟨w, hw⟩ : ∃ w, w = wit φ (logN + k) proof.witness := ⟨_, rfl⟩
  have hwl : w.length = 2 ^ (logN + k) := by rw [hw, wit_length]
  rw [← hw]
  obtain ⟨v0s, hv0s⟩ : ∃ v0s, v0s = (List.range (2 ^ logN)).map (bottom k w inputs) := ⟨_, rfl⟩
  have hv0D : ∀ i < 2 ^ logN, v0s.getD i [] = bottom k w inputs i := by
    intro i hi
    rw [hv0s, List.getD_eq_getElem _ _ (by simpa using hi)]
    simp
  have hvl : v0s.length = 2 ^ logN := by rw [hv0s]; simp
  have hv0 : ∀ v ∈ v0s, v.length = 2 ^ (k + 1) := by
    intro v hv
    rw [hv0s] at hv
    obtain ⟨i, hi, rfl⟩ := List.mem_map.1 hv
    have hi := List.mem_range.1 hi
    have hpt := hin (inputs.getD i []) (by
      rw [List.getD_eq_getElem _ _ (by omega)]; exact List.getElem_mem _)
    have hle : (inputs.getD i []).length ≤ padTo (inputs.getD i []).length := Nat.le_pow_clog (by decide) _
    simp only [bottom, inputTable, List.length_append, List.length_replicate, part_length k logN w hwl i hi]
    rw [pow_succ]
    omega
  obtain ⟨t1, o1, o2, hres, hole⟩ := evalOutputs_inv hno g7
  rw [← hm] at o1
  obtain ⟨q1, d1⟩ := challenges_at o1
  obtain ⟨q2, d2⟩ := challenges_at o2
  obtain ⟨a0, ha0⟩ : ∃ a0, a0 = commitVec params.gen1.generators [res] params.gen1.h (0 : F) := ⟨_, rfl⟩
  rw [← ha0] at g8 g10 e8
  have q2' := q2.pt "comm_claim_a0" a0
  rw [e8, List.nil_append] at q2'
  obtain ⟨L, hL⟩ : ∃ L, raw.length = L + 1 := ⟨raw.length - 1, by have := List.length_pos_iff.2 hne; omega⟩
  simp only [Nat.add_sub_cancel] at g10
  rw [hno] at g10 g11 g12
  rw [hL] at g10
  obtain ⟨b1, b2, b3, b4, ⟨a5, b5, q5, lb5⟩, s5⟩ := layersHx_sound params u hu hp.three hp.four φ φ3 φ4 hφ hφ3 hφ4 S hS ch
    proof.proofs dl hdl raw (inputNew ni na) (k + 1) hbit (legal_at raw (k + 1) hl) (2 ^ logN) logN
    (Nat.clog_pow 2 _ (by decide)) hN v0s hvl hv0 ⟨raw.length + 1, inputNew ni na :: layersOf raw⟩ rfl L 0
    ⟨a0, a0, a0, 1, 0, qa, q, q⟩ st tf tg (by omega) d2 rfl (by rw [hL]; exact g10)
  simp only at b4 s5
  obtain ⟨x0, xs, hxl⟩ : ∃ x0 xs, st.ql = x0 :: xs := by
    cases h : st.ql with
    | nil => rw [h] at b2; simp at b2
    | cons a b => exact ⟨a, b, rfl⟩
  obtain ⟨y0, ys, hyl⟩ : ∃ y0 ys, st.qr = y0 :: ys := by
    cases h : st.qr with
    | nil => rw [h] at b3; simp at b3
    | cons a b => exact ⟨a, b, rfl⟩
  rw [hxl] at b2 g11
  rw [hyl] at b3 g12
  simp only [List.length_cons, Nat.add_right_cancel_iff] at b2 b3
  have hvec : (inputVec (inputs.take (2 ^ logN))).length = 2 ^ (logN + k) := by
    rw [inputVec, List.length_flatMap]
    rw [List.map_congr_left (g := fun _ => 2 ^ k) (fun v hv => by
      have hv' := hin v (List.mem_of_mem_take hv)
      have hle : v.length ≤ padTo v.length := Nat.le_pow_clog (by decide) _
      simp only [List.length_append, List.length_replicate]
      omega)]
    rw [List.map_const', List.sum_replicate, List.length_take, min_eq_left hil, smul_eq_mul, pow_add]
  obtain ⟨a6, b6, q6, la6, lb6, s6⟩ := in_sound params hp.shared u hu φ hφ S hS ch proof.witness proof.prod0 k0 hk0 proof.y0
    proof.eq0 _ st.qa x0 xs st.x (logN + k) (by rw [List.length_append, b1, b2]) hvec.le tg th g11
  obtain ⟨a7, b7, q7, la7, lb7, s7⟩ := in_sound params hp.shared u hu φ hφ S hS ch proof.witness proof.prod1 k1 hk1 proof.y1
    proof.eq1 _ st.qa y0 ys st.y (logN + k) (by rw [List.length_append, b1, b3]) hvec.le th tr' g12
  have hd : drawn ch td = [] := by
    rw [← e6]
    unfold drawn
    rw [drawnFrom_append, hplain.drawn]
    rfl
  have hsd : said td = [] := by
    rw [← e6, said_append, hplain.said]
    rfl
  have hfirst : ∀ t, td <+: t → firstPts t = proof.witness := by
    rintro t ⟨r, rfl⟩
    rw [← e6, List.append_assoc]
    exact hplain.first _ _ _
  refine ⟨?_, ?_⟩
  · have qq := q1.trans (q2'.trans (q5.trans (q6.trans q7)))
    rw [← drawn_length ch, qq.chs, hd]
    simp only [List.nil_append, List.length_append, d1, d2, lb6, lb7]
    unfold hxChallenges
    rw [hL]
    omega
  have key : (∃ i < 2 ^ logN, ∃ j, (outputs.getD i []).getD j 0 ≠ (topValues (bottom k w inputs i) raw).getD j 0) →
      HitFrom ch (badAll φ φ3 φ4 S raw logN k m dl outputs v0s k0 k1) td tr' := by
    rintro ⟨i, hi, j, hj⟩
    have hgd : ∀ i < 2 ^ logN, ∀ j, (paddedTop (v0s.getD i []) raw).getD j 0 = (topValues (bottom k w inputs i) raw).getD j 0 :=
      fun i hi j => by rw [hv0D i hi]; exact padded_getD raw _ _ (fun _ => rfl) j
    have hjm : j < 2 ^ m := by
      by_contra hcon
      apply hj
      rw [List.getD_eq_default _ _ (by
        have := hole (outputs.getD i []) (by
          rw [List.getD_eq_getElem _ _ (by omega)]; exact List.getElem_mem _)
        rw [d1] at this; omega)]
      obtain ⟨pre, l, rfl⟩ := splitLast raw hne
      have : ((pre ++ [l]).getD L []).length = l.length := by
        have : L = pre.length := by simpa using hL.symm
        rw [this]; simp
      rw [this, d1] at b4
      rw [List.getD_eq_default _ _ (by
        obtain ⟨t1, -⟩ := topValues_length pre l (bottom k w inputs i) (inputNew ni na)
        rw [t1]; omega)]
    have hgapne : ∃ i, i < 2 ^ logN ∧ ∃ j, (outGap raw m outputs v0s i).getD j 0 ≠ 0 := ⟨i, hi, j, by
      rw [outGap, getD_map_range _ _ hjm, hgd i hi]
      exact sub_ne_zero.2 hj⟩
    have hz := Classical.epsilon_spec hgapne
    unfold badAll
    obtain ⟨z, hzdef⟩ : ∃ z, z = Classical.epsilon fun i => i < 2 ^ logN ∧ ∃ j, (outGap raw m outputs v0s i).getD j 0 ≠ 0 :=
      ⟨_, rfl⟩
    rw [← hzdef] at hz ⊢
    obtain ⟨hzlt, hz⟩ := hz
    have post2 := q5.pre.trans (q6.pre.trans q7.pre)
    rcases out_sound ch _ m _ q _ _ (by simp [outGap]) hz o1 with hb | hb
    · exact (HitFrom.of_hit hb).first q1 d1 (q2'.pre.trans post2)
    refine HitFrom.second q1 rfl d1 ?_
    rcases out_sound ch _ logN ((List.range (2 ^ logN)).map fun i => mle (outGap raw m outputs v0s i) q) qa _ _ (by simp)
      ⟨z, by rw [getD_map_range _ _ hzlt]; exact hb⟩ o2 with hb2 | hb2
    · refine HitFrom.first ((HitFrom.of_hit hb2).lift (At.refl _ _) (fun ps vs => ?_) ?_) q2' d2 post2
      · rw [List.nil_append]
      · rw [← e8]; exact List.prefix_append _ _
    refine HitFrom.second q2' rfl d2 ?_
    rw [List.getD_cons_zero, hL]
    obtain ⟨c1, c2⟩ := s5 (fun qa ql qr => after (k0 + 2) (2 * k0 + 7) (badIn φ k0 qa ql) fun _ _ => badIn φ k1 qa qr) tr'
      (q6.pre.trans q7.pre)
    have hψ : φ 0 a0 = res := by
      rw [ha0, hu]
      have : φ 0 u = 1 := hφ.gen 0 0 (by simp)
      simp [commitVec, msm, this]
    have hdiff : mle ((List.range (2 ^ logN)).map fun i => mle (outGap raw m outputs v0s i) q) qa =
        tabs outputs qa q - tabs (valsAt raw v0s (L + 1)) qa q := by
      have e : ((List.range (2 ^ logN)).map fun i => mle (outGap raw m outputs v0s i) q) = (List.range (2 ^ logN)).map fun i =>
          1 * mle (outputs.getD i []) q + (-1) * mle (paddedTop (v0s.getD i []) raw) q := by
        apply List.map_congr_left
        intro i _
        rw [mle_outGap _ _ _ _ _ _ d1]
        ring
      rw [e, mle_combo]
      unfold tabs
      have f1 : mle ((List.range (2 ^ logN)).map fun i => mle (outputs.getD i []) q) qa =
          mle (outputs.map fun t => mle t q) qa := by
        apply mle_congr
        intro i hi
        rw [getD_map_range _ _ (by rw [← d2]; exact hi), getD_map_mle]
      have f2 : mle ((List.range (2 ^ logN)).map fun i => mle (paddedTop (v0s.getD i []) raw) q) qa =
          mle ((valsAt raw v0s (L + 1)).map fun t => mle t q) qa := by
        apply mle_congr
        intro i hi
        rw [d2] at hi
        rw [getD_map_range _ _ hi, getD_map_mle]
        congr 1
        unfold valsAt
        rw [← hL, List.take_length, List.getD_eq_getElem _ _ (by rw [hvl]; exact hi),
          List.getD_eq_getElem _ _ (by rw [List.length_map, hvl]; exact hi), List.getElem_map]
      rw [f1, f2]
      ring
    rcases c2 (by
      rw [hψ, hres]
      rw [hdiff] at hb2
      simpa using sub_ne_zero.1 hb2) with hit | ⟨hfin, mX, mY, x1, x2, x3⟩
    · exact hit
    apply c1
    have tb : ∀ q0 qs, qs.length = k → tabs v0s st.qa (q0 :: qs) =
        (1 - q0) * mle (wit φ (logN + k) proof.witness) (st.qa ++ qs) + q0 * mle (inputVec (inputs.take (2 ^ logN))) (st.qa ++ qs) := by
      intro q0 qs hqs
      rw [hv0s, ← hw]
      exact tabs_bottom k logN w hwl inputs hin st.qa q0 qs b1 hqs
    have ne1 : ∀ (q0 : F) qs, (∀ x ∈ q0 :: qs, x ≠ 1) → ∀ r ∈ st.qa ++ qs, r ≠ 1 := by
      intro q0 qs h r hr
      rcases List.mem_append.1 hr with hr | hr
      · exact x1 r hr
      · exact h r (List.mem_cons_of_mem _ hr)
    rw [hxl, hyl] at hfin ⊢
    rw [hxl] at x2
    rw [hyl] at x3
    rw [tb x0 xs b2, tb y0 ys b3] at hfin
    rcases hfin with hX | hY
    · exact (s6 hX mX (ne1 _ _ x2)).first q6 lb6 q7.pre
    · exact HitFrom.second q6 la6 lb6 (s7 hY mY (ne1 _ _ x3))
  by_cases hgood : ∀ i < 2 ^ logN, ∀ j, (outputs.getD i []).getD j 0 = (topValues (bottom k w inputs i) raw).getD j 0
  · exact Or.inl hgood
  right
  push Not at hgood
  obtain ⟨t, lab, a, b, hat, hpre, hmem⟩ := key hgood
  refine ⟨t, lab, List.nil_prefix, hpre, ?_⟩
  beta_reduce
  rw [hfirst t hat.pre, ← hw, ← hv0s, hat.pts, hat.chs, hsd, hd, List.nil_append, List.nil_append]
  exact hmem

/-! ### Counting -/

theorem causal_zkRounds (proof : ZkProof F G) (k j : Nat) (a : G) : Causal fun ch => zkRounds ch proof k j a := by
  induction k generalizing j a with
  | zero => exact Causal.pure _
  | succ k ih =>
    exact (Causal.orPanic _).bind fun _ => (Causal.orPanic _).bind fun _ => (Causal.say _).bind fun _ =>
      (Causal.challenge _).bind fun _ => (Causal.say _).bind fun _ => (Causal.say _).bind fun _ => (ih _ _).bind fun _ =>
      Causal.pure _

theorem causal_sayDeltas (ds : List G) : Causal (F := F) fun _ => sayDeltas ds := by
  induction ds with
  | nil => exact Causal.pure _
  | cons d ds ih => exact (Causal.say _).bind fun _ => ih

theorem causal_layer (params : Params G) (proof : ZkProof F G) (a : G) (u0 u1 : F) (qa ql qr : List F) (gates : List Gate)
    (n ng : Nat) : Causal fun ch => zkVerify ch params proof a u0 u1 qa ql qr gates n ng :=
  (causal_zkRounds _ _ _ _).bind fun _ => (Causal.orPanic _).bind fun _ =>
    ((Lz.Causal.product _ _ _ _ _).bind fun _ => (Causal.ensure _ _).bind fun _ => (causal_sayDeltas _).bind fun _ =>
      (Causal.challenges _ _).bind fun _ => (Causal.say _).bind fun _ => (Causal.challenge _).bind fun _ =>
      (Causal.orPanic _).bind fun _ => (Causal.ensure _ _).bind fun _ => (Causal.ensure _ _).bind fun _ =>
      Causal.ensure _ _).bind fun _ => Causal.pure _

theorem causal_layers (params : Params G) (proofs : List (ZkProof F G)) (c : Circuit) (n k d : Nat) (st : St F G) :
    Causal fun ch => layersChecked ch params proofs c n k d st := by
  induction k generalizing d st with
  | zero => exact Causal.pure _
  | succ k ih =>
    refine (Causal.orPanic _).bind fun _ => (Causal.orPanic _).bind fun _ => (Causal.orPanic _).bind fun _ =>
      (Causal.ensure _ _).bind fun _ => (causal_layer _ _ _ _ _ _ _ _ _ _ _).bind fun _ => ?_
    by_cases h : d < c.depth - 2
    · simp only [h, if_true]
      exact (Causal.challenge _).bind fun _ => (Causal.challenge _).bind fun _ => (Causal.say _).bind fun _ => ih _ _
    · simp only [h, if_false]
      exact ih _ _

theorem causal_instances (is os : List (List F)) : Causal (G := G) fun _ => sayInstances is os := by
  induction os generalizing is with
  | nil => cases is <;> exact Causal.pure _
  | cons o os ih =>
    cases is with
    | nil => exact Causal.throw _
    | cons i is => exact (Causal.say _).bind fun _ => (Causal.say _).bind fun _ => ih _

/-- What the repaired verifier has sent before a challenge depends only on the proof and the earlier challenges. -/
theorem causal_checked (params : Params G) (proof : HyraxProof F G) (outputs inputs : List (List F)) (c : Circuit)
    (circuitHash paramHash : F) : Causal fun ch => verifyChecked ch params proof outputs inputs c circuitHash paramHash :=
  (Causal.say _).bind fun _ => (Causal.say _).bind fun _ => (Causal.ensure _ _).bind fun _ => (Causal.ensure _ _).bind fun _ =>
    (causal_instances _ _).bind fun _ => (Causal.say _).bind fun _ =>
    ((Causal.orPanic _).bind fun _ => (Causal.challenges _ _).bind fun _ => (Causal.ensure _ _).bind fun _ =>
      (Causal.challenges _ _).bind fun _ => Causal.pure _).bind fun _ =>
    (Causal.say _).bind fun _ => (Causal.ensure _ _).bind fun _ => (causal_layers _ _ _ _ _ _ _).bind fun _ =>
    (Lz.Causal.input _ _ _ _ _ _ _ _ _).bind fun _ => Lz.Causal.input _ _ _ _ _ _ _ _ _

open Classical in
/-- The same as a count, when the challenges are drawn from a tape of `m` field elements (the interactive protocol): if for
some instance no witness makes the circuit compute the outputs, then for every prover whose messages before each challenge
depend only on the earlier challenges, at most `6 · m · |F| ^ (m - 1)` of the `|F| ^ m` tapes lead to acceptance.

Partial: for the repaired verifier, as `C53_sound_partial`. -/
theorem C53_count_partial [Fintype F] (params : Params G) (hp : GoodHx F params) (ni na : Nat)
    (raw : List (List (Nat × Nat × Nat))) (c : Circuit) (hc : Circuit.new ni na raw = .ok c) (hne : raw ≠ []) (k : Nat)
    (hk : k = Nat.clog 2 (max na ni)) (logN : Nat) (hN : 1 ≤ logN) (inputs outputs : List (List F))
    (hno : outputs.length = 2 ^ logN) (hin : ∀ v ∈ inputs, padTo v.length = 2 ^ k) (dl : Nat → Nat) (k0 k1 : Nat)
    (hwrong : ∃ i < 2 ^ logN, ∀ w : List F, w.length = 2 ^ k →
      ∃ j, (outputs.getD i []).getD j 0 ≠ (topValues (inputTable k w (inputs.getD i [])) raw).getD j 0)
    (circuitHash paramHash : F) (m : Nat)
    (hm : m = hxChallenges logN k (Nat.clog 2 (padTo (outputs.getD 0 []).length)) raw k0 k1)
    (prover : (Fin m → F) → HyraxProof F G) (h0 : ∀ f, (prover f).prod0.L.length = k0) (h1 : ∀ f, (prover f).prod1.L.length = k1)
    (hd : ∀ f d p, (prover f).proofs[d]? = some p → p.deltas.length = dl d)
    (hcausal : ∀ f g tr tr',
      verifyChecked (tape (List.ofFn f)) params (prover f) outputs inputs c circuitHash paramHash [] = .ok ((), tr) →
      verifyChecked (tape (List.ofFn g)) params (prover g) outputs inputs c circuitHash paramHash [] = .ok ((), tr') →
      ∀ i : Fin m, (∀ j < i, f j = g j) → before i tr = before i tr') :
    (Finset.univ.filter fun f : Fin m → F => ∃ tr,
      verifyChecked (tape (List.ofFn f)) params (prover f) outputs inputs c circuitHash paramHash [] = .ok ((), tr)).card ≤
      m * 6 * Fintype.card F ^ (m - 1) := by
  obtain ⟨ext, bad, hb, hl, -, h⟩ := C53_sound_partial params hp ni na raw c hc hne k hk logN hN inputs outputs hno hin dl k0 k1
  refine card_accepted m 6 bad hb [] rfl
    (fun f tr => verifyChecked (tape (List.ofFn f)) params (prover f) outputs inputs c circuitHash paramHash [] = .ok ((), tr))
    (fun f tr ha => ((h _ _ _ (prover f) tr (h0 f) (h1 f) (hd f) ha).1.trans hm.symm).le) hcausal
    (fun f tr ha => (h _ _ _ (prover f) tr (h0 f) (h1 f) (hd f) ha).2.resolve_left fun hs => ?_) _ ?_
  · obtain ⟨i, hi, hw⟩ := hwrong
    obtain ⟨j, hj⟩ := hw _ (part_length k logN _ (hl (prover f).witness) i hi)
    exact hj (hs i hi j)
  · intro f hf
    exact (Finset.mem_filter.1 hf).2

/-! ### A run -/

/-- Unit vectors as generators. -/
def exUnits : ParamRand V5 := ⟨fun i => if i = 0 then ex 2 else ex 3, ex 0, ex 1,
  fun i => if i = 0 then ex 1 else if i = 1 then ex 2 else ex 3, ex 0,
  fun i => if i = 0 then ex 1 else if i = 1 then ex 2 else if i = 2 then ex 3 else ex 4, ex 0⟩

theorem exUnits_good : GoodHx F17 (paramsNew 2 exUnits) :=
  ⟨rfl, rfl, rfl, rfl, rfl, ex_indep [0, 1, 2, 3] (by decide), ex_indep [0, 1, 2, 3] (by decide),
    ex_indep [0, 1, 2, 3, 4] (by decide)⟩

/-- The circuit of the examples: two layers over two public inputs and two witness values. -/
abbrev exLayers : List (List (Nat × Nat × Nat)) := [[(0, 0, 2), (1, 1, 3)], [(1, 0, 1), (0, 0, 1)]]

/-- The repaired verifier accepts the proof of the honest prover for two instances. -/
def exHonest : Bool :=
  match Circuit.new 2 2 exLayers with
  | .error _ => false
  | .ok c =>
    match prove (fun _ => 3) (paramsNew 2 exUnits) [[5, 6], [1, 2]] [[3, 4], [4, 5]] c 1 2 2 (exRand 2) [] with
    | .error _ => false
    | .ok ((p, o), _) =>
      (o == [[8 * 24, 8 + 24], [5 * 10, 5 + 10]]) &&
      match verifyChecked (fun _ => 3) (paramsNew 2 exUnits) p o [[3, 4], [4, 5]] c 1 2 [] with
      | .ok _ => true
      | .error _ => false

theorem exHonest_true : exHonest = true := by decide +kernel

/-- What the theorem says about that run. -/
example : ∃ c proof tr', Circuit.new 2 2 exLayers = .ok c ∧
    verifyChecked (fun _ => (3 : F17)) (paramsNew 2 exUnits) proof [[8 * 24, 8 + 24], [5 * 10, 5 + 10]] [[3, 4], [4, 5]] c 1 2 [] =
      .ok ((), tr') ∧
    ∃ (ext : List V5 → List F17) (bad : Transcript F17 V5 → List F17 → Finset F17), (∀ t vs, (bad t vs).card ≤ 6) ∧
      ((∀ i < 2, ∀ j, ([[8 * 24, 8 + 24], [5 * 10, 5 + 10]].getD i []).getD j (0 : F17) =
          (topValues (bottom 1 (ext proof.witness) [[3, 4], [4, 5]] i) exLayers).getD j 0) ∨
        Hit (fun _ => 3) bad [] tr') := by
  have h := exHonest_true
  unfold exHonest at h
  split at h
  · cases h
  rename_i c hc
  split at h
  · cases h
  rename_i p o tr hp
  rw [Bool.and_eq_true] at h
  obtain ⟨ho, h⟩ := h
  obtain rfl := beq_iff_eq.1 ho
  split at h
  · rename_i r hr
    obtain ⟨⟨⟩, tr'⟩ := r
    have hk : 1 = Nat.clog 2 (max 2 2) := by decide
    obtain ⟨ext, bad, hb, -, -, H⟩ := C53_sound_partial (paramsNew 2 exUnits) exUnits_good 2 2 exLayers c hc (by simp) 1 hk 1 le_rfl
      [[3, 4], [4, 5]] [[8 * 24, 8 + 24], [5 * 10, 5 + 10]] rfl (by
        intro v hv
        simp only [List.mem_cons, List.not_mem_nil, or_false] at hv
        rcases hv with rfl | rfl <;> decide) (fun d => ((p.proofs[d]?).map fun q => q.deltas.length).getD 0)
      p.prod0.L.length p.prod1.L.length
    exact ⟨c, p, tr', hc, hr, ext, bad, hb, (H _ 1 2 p tr' rfl rfl (fun d q hq => by rw [hq]; rfl) hr).2⟩
  · cases h

/-- A prover that sends the same proof always, of outputs no witness gives: the gate computes twice the first public input,
and in the first instance, where it is 3, the output 5 is claimed. (Over a field this small the bound itself says little; the
case shows that the hypotheses can be met.) -/
example (c : Circuit) (hc : Circuit.new 2 2 [[(0, 2, 2)]] = .ok c) (proof : HyraxProof F17 V5) (m : Nat)
    (hm : m = hxChallenges 1 1 0 [[(0, 2, 2)]] proof.prod0.L.length proof.prod1.L.length) (acc : Finset (Fin m → F17))
    (h : ∀ f ∈ acc, ∃ tr, verifyChecked (tape (List.ofFn f)) (paramsNew 2 exUnits) proof [[5], [8]] [[3, 4], [4, 5]] c 1 2 [] =
      .ok ((), tr)) : acc.card ≤ m * 6 * 17 ^ (m - 1) := by
  classical
  have hk : 1 = Nat.clog 2 (max 2 2) := by decide
  have := C53_count_partial (paramsNew 2 exUnits) exUnits_good 2 2 _ c hc (by simp) 1 hk 1 le_rfl [[3, 4], [4, 5]] [[5], [8]] rfl (by
        intro v hv
        simp only [List.mem_cons, List.not_mem_nil, or_false] at hv
        rcases hv with rfl | rfl <;> decide) (fun d => ((proof.proofs[d]?).map fun q => q.deltas.length).getD 0) _ _
    ⟨0, by decide, fun w hw => ⟨0, by
      obtain ⟨a, b, rfl⟩ := List.length_eq_two.1 hw
      intro h0
      have : (5 : F17) = 3 + 3 := h0
      revert this
      decide⟩⟩ 1 2 m (by rw [hm]; rfl) (fun _ => proof) (fun _ => rfl) (fun _ => rfl) (fun _ d q hq => by rw [hq]; rfl)
    (fun f g tr tr' h h' i hi => (causal_checked (paramsNew 2 exUnits) proof [[5], [8]] [[3, 4], [4, 5]] c 1 2).before f g i hi h h')
  rw [ZMod.card] at this
  exact (Finset.card_le_card fun f hf => Finset.mem_filter.2 ⟨Finset.mem_univ _, h f hf⟩).trans this

/-- A forged proof as in `C53_violated`: the verifier of the code accepts it, the repaired one does not. -/
def exForged : Bool × Bool :=
  let ok : Except Stop (Unit × Transcript F17 V5) → Bool := fun r => match r with
    | .ok _ => true
    | .error _ => false
  (ok (verify (fun _ => 3) (paramsNew 2 exUnits) (zeroProof 8 1 1) [[5], [5]] [[0], [0]] exMul 1 2 []),
    ok (verifyChecked (fun _ => 3) (paramsNew 2 exUnits) (zeroProof 8 1 1) [[5], [5]] [[0], [0]] exMul 1 2 []))

example : exForged = (true, false) := by decide +kernel

end Zkp.Hx
