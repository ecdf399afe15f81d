/- C101: what Hyrax's proofs reveal about the witness. -/
import Verif.Spec.HyraxDraw
import Verif.Proof.HyraxHidingLeak

namespace Zkp.Hx

open Zkp.Ml Zkp.Spartan Zkp.Sc Zkp.Gkr Zkp.Cp

set_option linter.unusedSectionVars false
set_option linter.unusedSimpArgs false

variable {F : Type} [Field F] {G : Type} [AddCommGroup G] [Module F G] [DecidableEq F] [DecidableEq G]

/-- The sizes of the layers as exponents, from the one below the output down to the inputs; the input layer has `2 ^ (k + 1)`
values. -/
def drawSizes (k : Nat) (raw : List (List (Nat × Nat × Nat))) : List Nat :=
  (((2 ^ (k + 1) :: raw.map List.length).take raw.length).reverse).map (Nat.clog 2)

/-- The random choices of the prover. -/
abbrev Draws (F : Type) [Field F] (logN k : Nat) (raw : List (List (Nat × Nat × Nat))) : Type :=
  {d : Draw F // d.Ok logN k (drawSizes k raw)}

/-- The full claim: for two lists of witnesses with the same public inputs and outputs, challenges chosen beforehand and
blinding generators that generate the group, the random choices with the one and those with the other correspond one to one,
such that corresponding choices give the same proof. The shapes are those for which the prover does not panic
(`C86_shape`). -/
def C101_statement (F G : Type) [Field F] [AddCommGroup G] [Module F G] [DecidableEq F] [DecidableEq G] : Prop :=
  ∀ (ch : Oracle F G), Oblivious ch → (∀ t, ch (t ++ [.chal "x"]) ≠ 0) → ∀ (num : Nat) (r : ParamRand G), Spans F r.h →
    Spans F r.h3 → Spans F r.h4 → ∀ (ni na : Nat) (raw : List (List (Nat × Nat × Nat))) (c : Circuit),
    Circuit.new ni na raw = .ok c → raw ≠ [] → ∀ k : Nat, k = Nat.clog 2 (max na ni) → Tapers (2 * 2 ^ k) raw →
    ∀ (ps ps' : List (List F × List F)) (logN : Nat), 1 ≤ logN → ps.length = 2 ^ logN →
    (∀ p ∈ ps, p.1.length ≤ ni ∧ p.2.length = p.1.length ∧ p.2.length ≤ na ∧ Nat.clog 2 p.1.length = k) →
    (∀ p ∈ ps', p.2.length = p.1.length) → ps'.map Prod.fst = ps.map Prod.fst →
    ps'.map (honestOutputs k raw) = ps.map (honestOutputs k raw) → logN + k ≤ num →
    ∀ (circuitHash paramHash : F) (tr : Transcript F G),
    ∃ f : Draws F logN k raw ≃ Draws F logN k raw, ∀ d : Draws F logN k raw, ∃ proof t t',
      prove ch (paramsNew num r) (ps.map Prod.snd) (ps.map Prod.fst) c circuitHash paramHash (2 ^ logN) d.1.rand tr =
        .ok ((proof, ps.map (honestOutputs k raw)), t) ∧
      prove ch (paramsNew num r) (ps'.map Prod.snd) (ps.map Prod.fst) c circuitHash paramHash (2 ^ logN) (f d).1.rand tr =
        .ok ((proof, ps.map (honestOutputs k raw)), t')

theorem flat_tapers (n : Nat) (hn : ∃ k, n = 2 ^ k) (raw : List (List (Nat × Nat × Nat))) (h : ∀ l ∈ raw, l.length = n) :
    Tapers n raw := by
  induction raw with
  | nil => trivial
  | cons l ls ih =>
    have hl := h l (by simp)
    refine ⟨hl ▸ hn, .inr (by omega), ?_⟩
    rw [hl]
    exact ih fun x hx => h x (by simp [hx])

theorem flat_sizes (k : Nat) (raw : List (List (Nat × Nat × Nat))) (h : ∀ l ∈ raw, l.length = 2 ^ (k + 1)) :
    drawSizes k raw = List.replicate raw.length (k + 1) := by
  have e : raw.map List.length = List.replicate raw.length (2 ^ (k + 1)) :=
    List.eq_replicate_iff.2 ⟨by simp, by
      intro b hb
      obtain ⟨l, hl, rfl⟩ := List.mem_map.1 hb
      exact h l hl⟩
  rw [drawSizes, e, ← List.replicate_succ, List.take_replicate, List.reverse_replicate, List.map_replicate,
    Nat.clog_pow 2 _ (by decide)]
  congr 1; omega

theorem flat_log (k : Nat) (raw : List (List (Nat × Nat × Nat))) (h : ∀ l ∈ raw, l.length = 2 * 2 ^ k) (i : Nat)
    (hi : i ≤ raw.length) : sizeLog (2 * 2 ^ k) raw i = k + 1 := by
  have e : counts (2 * 2 ^ k) raw = List.replicate (raw.length + 1) (2 ^ (k + 1)) :=
    List.eq_replicate_iff.2 ⟨by simp [counts], by
      intro b hb
      rw [pow_succ, Nat.mul_comm]
      simp only [counts, List.mem_cons, List.mem_map] at hb
      rcases hb with rfl | ⟨l, hl, rfl⟩
      · rfl
      · exact h l hl⟩
  rw [sizeLog, e, List.getD_eq_getElem _ _ (by simp; omega), List.getElem_replicate, Nat.clog_pow 2 _ (by decide)]

/-- Circuits all of whose layers have as many gates as there are values in the input layer: the proofs reveal nothing about
the witnesses beyond the outputs.

Partial: the full claim is `C101_statement`; it is false (`C101_leak`, `C101_violated`). -/
theorem C101_partial (h2 : (2 : F) ≠ 0) (h3 : (3 : F) ≠ 0) (ch : Oracle F G) (ho : Oblivious ch)
    (hch : ∀ t, ch (t ++ [.chal "x"]) ≠ 0) (num : Nat) (r : ParamRand G) (hs : Spans F r.h) (hs3 : Spans F r.h3)
    (hs4 : Spans F r.h4) (ni na : Nat) (raw : List (List (Nat × Nat × Nat))) (c : Circuit)
    (hc : Circuit.new ni na raw = .ok c) (hraw : raw ≠ []) (k : Nat) (hk : k = Nat.clog 2 (max na ni))
    (hflat : ∀ l ∈ raw, l.length = 2 * 2 ^ k) (ps ps' : List (List F × List F)) (logN : Nat) (hN : 1 ≤ logN)
    (hn : ps.length = 2 ^ logN)
    (hlen : ∀ p ∈ ps, p.1.length ≤ ni ∧ p.2.length = p.1.length ∧ p.2.length ≤ na ∧ Nat.clog 2 p.1.length = k)
    (hlen' : ∀ p ∈ ps', p.2.length = p.1.length) (hin : ps'.map Prod.fst = ps.map Prod.fst)
    (hout : ps'.map (honestOutputs k raw) = ps.map (honestOutputs k raw)) (hnum : logN + k ≤ num)
    (circuitHash paramHash : F) (tr : Transcript F G) :
    ∃ f : Draws F logN k raw ≃ Draws F logN k raw, ∀ d : Draws F logN k raw, ∃ proof t t',
      prove ch (paramsNew num r) (ps.map Prod.snd) (ps.map Prod.fst) c circuitHash paramHash (2 ^ logN) d.1.rand tr =
        .ok ((proof, ps.map (honestOutputs k raw)), t) ∧
      prove ch (paramsNew num r) (ps'.map Prod.snd) (ps.map Prod.fst) c circuitHash paramHash (2 ^ logN) (f d).1.rand tr =
        .ok ((proof, ps.map (honestOutputs k raw)), t') := by
  obtain ⟨L, hL⟩ : ∃ L, raw.length = L + 1 := ⟨raw.length - 1, by have := List.length_pos_iff.2 hraw; omega⟩
  have hpow : 2 * 2 ^ k = 2 ^ (k + 1) := by rw [pow_succ]; omega
  have ht := flat_tapers (2 * 2 ^ k) ⟨k + 1, hpow⟩ raw hflat
  have hn' : ps'.length = 2 ^ logN := by
    have := congrArg List.length hin
    simpa [hn] using this
  have hlen2 : ∀ p ∈ ps', p.1.length ≤ ni ∧ p.2.length = p.1.length ∧ p.2.length ≤ na ∧ Nat.clog 2 p.1.length = k := by
    intro p hp
    have : p.1 ∈ ps.map Prod.fst := hin ▸ List.mem_map.2 ⟨p, hp, rfl⟩
    obtain ⟨q, hq, e⟩ := List.mem_map.1 this
    obtain ⟨l1, l2, l3, l4⟩ := hlen q hq
    have := hlen' p hp
    rw [e] at l1 l2 l4
    exact ⟨l1, this, by omega, l4⟩
  have R := ready_of ni na raw c hc L hL k hk ht ps logN hN hn hlen
  have R' := ready_of ni na raw c hc L hL k hk ht ps' logN hN hn' hlen2
  have gd := good_of (F := F) num r hs hs3 hs4 (logN + k) hnum
  have hfl : ∀ i ≤ L + 1, sizeLog (2 * 2 ^ k) raw i = k + 1 := fun i hi => flat_log k raw hflat i (by omega)
  have hsz : drawSizes k raw = List.replicate (L + 1) (k + 1) := by
    rw [flat_sizes k raw (by rw [← hpow]; exact hflat), hL]
  rw [show ps.map (honestOutputs k raw) = outs (fun p => layout (2 ^ k) p.1 p.2 :: circuitValues (layout (2 ^ k) p.1 p.2) raw) ps
    from rfl] at hout ⊢
  rw [show ps'.map (honestOutputs k raw) = outs (fun p => layout (2 ^ k) p.1 p.2 :: circuitValues (layout (2 ^ k) p.1 p.2) raw) ps'
    from rfl] at hout
  obtain ⟨o, hoo⟩ : ∃ o, o = outs (fun p => layout (2 ^ k) p.1 p.2 :: circuitValues (layout (2 ^ k) p.1 p.2) raw) ps := ⟨_, rfl⟩
  obtain ⟨f, hf⟩ := choices_equiv
    (fun (d : Draws F logN k raw) (proof : HyraxProof F G) => ∃ N, Yields (prove ch (paramsNew num r) (ps.map Prod.snd)
      (ps.map Prod.fst) c circuitHash paramHash (2 ^ logN) d.1.rand) tr.length (proof, o) N)
    (fun d proof => ∃ N, Yields (prove ch (paramsNew num r) (ps'.map Prod.snd)
      (ps'.map Prod.fst) c circuitHash paramHash (2 ^ logN) d.1.rand) tr.length (proof, o) N)
    (fun d => by
      obtain ⟨d', proof, N', a, b, b'⟩ := run_same h2 h3 ho hch (paramsNew num r) gd R R' hfl hin hout circuitHash paramHash d.1
        (hsz ▸ d.2) tr.length
      exact ⟨⟨d', hsz ▸ a⟩, proof, ⟨N', hoo ▸ b⟩, ⟨N', hoo ▸ b'⟩⟩)
    (fun d => by
      obtain ⟨d', proof, N', a, b, b'⟩ := run_same h2 h3 ho hch (paramsNew num r) gd R' R hfl hin.symm hout.symm circuitHash paramHash
        d.1 (hsz ▸ d.2) tr.length
      rw [hout, ← hoo] at b b'
      exact ⟨⟨d', hsz ▸ a⟩, proof, ⟨N', b'⟩, ⟨N', b⟩⟩)
    (fun d b b' ⟨_, h⟩ ⟨_, h'⟩ => (Prod.mk.inj (h.unique h').1).1) (fun d b b' ⟨_, h⟩ ⟨_, h'⟩ => (Prod.mk.inj (h.unique h').1).1)
    (fun d e b ⟨_, h⟩ ⟨_, h'⟩ => Subtype.ext (run_inj h2 h3 ho hch (paramsNew num r) gd R hfl circuitHash paramHash d.1 e.1
      (hsz ▸ d.2) (hsz ▸ e.2) _ _ _ _ h h'))
    (fun d e b ⟨_, h⟩ ⟨_, h'⟩ => Subtype.ext (run_inj h2 h3 ho hch (paramsNew num r) gd R' hfl circuitHash paramHash d.1 e.1
      (hsz ▸ d.2) (hsz ▸ e.2) _ _ _ _ h h'))
  refine ⟨f, fun d => ?_⟩
  obtain ⟨proof, ⟨N, h⟩, ⟨N', h'⟩⟩ := hf d
  obtain ⟨t, e, -⟩ := h tr rfl
  obtain ⟨t', e', -⟩ := h' tr rfl
  rw [hin] at e'
  exact ⟨proof, t, t', by rw [← hoo]; exact e, by rw [← hoo]; exact e'⟩

/-- The third sum-check of a layer takes the blinding factors of its evaluations from the wrong position (zk_sumcheck_proof.rs:431): if
the layer has fewer gates than the one below, two of its commitments have the same blinding factor, so that their difference
is a fixed multiple of the generator of the values, whatever the random choices. The multiple depends on the challenges
and the witness. -/
theorem C101_leak (h2 : (2 : F) ≠ 0) (h3 : (3 : F) ≠ 0) (ch : Oracle F G) (ho : Oblivious ch)
    (hch : ∀ t, ch (t ++ [.chal "x"]) ≠ 0) (num : Nat) (r : ParamRand G) (hs : Spans F r.h) (hs3 : Spans F r.h3)
    (hs4 : Spans F r.h4) (ni na : Nat) (raw : List (List (Nat × Nat × Nat))) (c : Circuit)
    (hc : Circuit.new ni na raw = .ok c) (k : Nat) (hk : k = Nat.clog 2 (max na ni))
    (ht : Tapers (2 * 2 ^ k) raw) (ps : List (List F × List F)) (logN : Nat) (hN : 1 ≤ logN) (hn : ps.length = 2 ^ logN)
    (hlen : ∀ p ∈ ps, p.1.length ≤ ni ∧ p.2.length = p.1.length ∧ p.2.length ≤ na ∧ Nat.clog 2 p.1.length = k)
    (hnum : logN + k ≤ num) (i below above j : Nat) (hi : i < raw.length)
    (hbelow : (2 * 2 ^ k :: raw.map List.length)[raw.length - 1 - i]? = some (2 ^ below))
    (habove : (raw.map List.length)[raw.length - 1 - i]? = some (2 ^ above)) (hj : above ≤ j) (hj' : j < below)
    (circuitHash paramHash : F) (tr : Transcript F G) :
    ∃ δ : F, ∀ rand : HyraxRand F, rand.witness.length = 2 ^ ((logN + k) / 2) →
      rand.in0.bullet.length = logN + k - (logN + k) / 2 → rand.in1.bullet.length = logN + k - (logN + k) / 2 →
      ∃ (proof : HyraxProof F G) (tr' : Transcript F G) (p : ZkProof F G) (a b : G),
        prove ch (paramsNew num r) (ps.map Prod.snd) (ps.map Prod.fst) c circuitHash paramHash (2 ^ logN) rand tr =
          .ok ((proof, ps.map (honestOutputs k raw)), tr') ∧
        proof.proofs[i]? = some p ∧ p.evals[logN + j]? = some a ∧ p.evals[logN + below + (j - above)]? = some b ∧
        a - b = δ • r.g1 := by
  obtain ⟨L, hL⟩ : ∃ L, raw.length = L + 1 := ⟨raw.length - 1, by omega⟩
  have e1 : sizeLog (2 * 2 ^ k) raw (L - i) = below := by
    rw [sizeLog, counts, List.getD_eq_getElem?_getD, show L - i = raw.length - 1 - i by omega, hbelow, Option.getD_some,
      Nat.clog_pow 2 _ (by decide)]
  have e2 : sizeLog (2 * 2 ^ k) raw (L - i + 1) = above := by
    rw [sizeLog, counts, List.getD_cons_succ, List.getD_eq_getElem?_getD, show L - i = raw.length - 1 - i by omega, habove,
      Option.getD_some, Nat.clog_pow 2 _ (by decide)]
  have R := ready_of ni na raw c hc L hL k hk ht ps logN hN hn hlen
  obtain ⟨δ, H⟩ := run_leak h2 h3 ho hch (paramsNew num r) (good_of (F := F) num r hs hs3 hs4 (logN + k) hnum) r.g1 rfl R circuitHash
    paramHash i j (by omega) (by rw [e2]; exact hj) (by rw [e1]; exact hj') tr.length
  refine ⟨δ, fun rand r1 r2 r3 => ?_⟩
  obtain ⟨proof, N', p, a, b, Y, q1, q2, q3, q4⟩ := H rand r1 r2 r3
  obtain ⟨t, e, -⟩ := Y tr rfl
  rw [e1, e2] at q3
  exact ⟨proof, t, p, a, b, e, q1, q2, q3, q4⟩

/-! ### Examples and the violation -/

theorem exChal_oblivious : Oblivious exChal := fun t t' h => by unfold exChal; rw [h]

theorem exSpans (h : F17) (hh : h = 3 ∨ h = 5 ∨ h = 9) : Spans F17 h := by
  rcases hh with rfl | rfl | rfl
  · exact fun p => ⟨p * 6, by simp only [smul_eq_mul]; exact ⟨by revert p; decide, by revert p; decide⟩⟩
  · exact fun p => ⟨p * 7, by simp only [smul_eq_mul]; exact ⟨by revert p; decide, by revert p; decide⟩⟩
  · exact fun p => ⟨p * 2, by simp only [smul_eq_mul]; exact ⟨by revert p; decide, by revert p; decide⟩⟩

/-- Random choices for one layer above two values and two instances. -/
def exHyDraw : Draw F17 :=
  ⟨[3], [⟨[1, 2, 3], [4, 5, 6], 7, 8, 9, 10, 11, 12, 13, 14, [1, 2, 3, 4, 5, 6, 7, 8, 9, 10], [15, 16, 1], 2⟩],
    ⟨1, 2, 3, 4, [(5, 6)], 9⟩, ⟨3, 2, 3, 4, [(7, 8)], 9⟩⟩

theorem exHyDraw_ok (raw : List (List (Nat × Nat × Nat))) (h : drawSizes 0 raw = [1]) : exHyDraw.Ok 1 0 (drawSizes 0 raw) := by
  rw [h]
  exact ⟨rfl, .cons ⟨rfl, rfl, rfl, rfl⟩ .nil, rfl, rfl⟩

/-- The squares of hidden values and the doubles of public ones; the hidden values are 3 and 5, or 14 and 5. The
choices exist. -/
example : exHyDraw.Ok 1 0 (drawSizes 0 [[(1, 0, 0), (0, 1, 1)]]) ∧ ∃ c, Circuit.new 1 1 [[(1, 0, 0), (0, 1, 1)]] = .ok c ∧
    ∃ f : Draws F17 1 0 [[(1, 0, 0), (0, 1, 1)]] ≃ Draws F17 1 0 [[(1, 0, 0), (0, 1, 1)]],
      ∀ d : Draws F17 1 0 [[(1, 0, 0), (0, 1, 1)]], ∃ proof t t',
        prove exChal (paramsNew 1 exPoints) [[3], [5]] [[2], [7]] c 1 2 2 d.1.rand [] = .ok ((proof, [[9, 4], [25, 14]]), t) ∧
        prove exChal (paramsNew 1 exPoints) [[14], [5]] [[2], [7]] c 1 2 2 (f d).1.rand [] = .ok ((proof, [[9, 4], [25, 14]]), t') := by
  have hk : Nat.clog 2 (max 1 1) = 0 := by decide
  refine ⟨exHyDraw_ok _ (by decide), ?_⟩
  obtain ⟨c, hc⟩ := (C55_accepted 1 1 [[(1, 0, 0), (0, 1, 1)]]).2 (by rw [hk]; simp [LegalLayers, Legal])
  have o1 : [([2], [3]), ([7], [5])].map (honestOutputs (F := F17) 0 [[(1, 0, 0), (0, 1, 1)]]) = [[9, 4], [25, 14]] := by decide +kernel
  have o2 : [([2], [14]), ([7], [5])].map (honestOutputs (F := F17) 0 [[(1, 0, 0), (0, 1, 1)]]) = [[9, 4], [25, 14]] := by decide +kernel
  have := C101_partial (F := F17) (G := F17) (by decide) (by decide) exChal exChal_oblivious (fun t => exChal_ne _) 1 exPoints
    (exSpans _ (.inl rfl)) (exSpans _ (.inr (.inl rfl))) (exSpans _ (.inr (.inr rfl))) 1 1 _ c hc (by simp) 0 hk.symm
    (by simp) [([2], [3]), ([7], [5])] [([2], [14]), ([7], [5])] 1 le_rfl rfl (by simp) (by simp) rfl (o2.trans o1.symm) le_rfl 1 2 []
  rw [o1] at this
  exact ⟨c, hc, this⟩

/-- The difference of two commitments in the proof about the squares of `w` and 5. -/
def gap (c : Circuit) (d : Draw F17) (w : F17) : Option F17 :=
  match prove exChal (paramsNew 1 exPoints) [[w], [5]] [[1], [1]] c 1 2 2 d.rand [] with
  | .ok ((proof, _), _) => do
    let p ← proof.proofs[0]?
    let a ← p.evals[1]?
    let b ← p.evals[2]?
    some (a - b)
  | .error _ => none

/-- A layer with a single gate above two values: the difference is the same whatever the random choices. -/
theorem gap_fixed (c : Circuit) (hc : Circuit.new 1 1 [[(1, 0, 0)]] = .ok c) (w : F17) :
    ∃ δ, ∀ d : Draws F17 1 0 [[(1, 0, 0)]], gap c d.1 w = some δ := by
  have hk : Nat.clog 2 (max 1 1) = 0 := by decide
  obtain ⟨δ, H⟩ := C101_leak (F := F17) (G := F17) (by decide) (by decide) exChal exChal_oblivious (fun t => exChal_ne _) 1 exPoints
    (exSpans _ (.inl rfl)) (exSpans _ (.inr (.inl rfl))) (exSpans _ (.inr (.inr rfl))) 1 1 _ c hc 0 hk.symm
    ⟨⟨0, rfl⟩, .inr (by simp), trivial⟩ [([1], [w]), ([1], [5])] 1 le_rfl rfl (by simp) le_rfl 0 1 0 0 (by simp) rfl rfl
    le_rfl (by omega) 1 2 []
  refine ⟨δ • exPoints.g1, fun d => ?_⟩
  obtain ⟨r1, -, r2, r3⟩ := d.2
  obtain ⟨proof, tr', p, a, b, e, q1, q2, q3, q4⟩ := H d.1.rand r1 r2 r3
  have e' : prove exChal (paramsNew 1 exPoints) [[w], [5]] [[1], [1]] c 1 2 2 d.1.rand [] = _ := e
  unfold gap
  rw [e']
  simp only [q1, q2, q3, Option.bind_eq_bind, Option.bind_some, q4]

/-- The hypotheses of `C101_leak` for the circuit with a single squaring gate. -/
example : ∃ c, Circuit.new 1 1 [[(1, 0, 0)]] = .ok c ∧ ∀ w, ∃ δ, ∀ d : Draws F17 1 0 [[(1, 0, 0)]], gap c d.1 w = some δ := by
  have hk : Nat.clog 2 (max 1 1) = 0 := by decide
  obtain ⟨c, hc⟩ := (C55_accepted 1 1 [[(1, 0, 0)]]).2 (by rw [hk]; simp [LegalLayers, Legal])
  exact ⟨c, hc, gap_fixed c hc⟩

/-- The witnesses 3 and 14 have the same square, but the proofs tell which was used: no random choices give a proof with the
one that some random choices give with the other. -/
theorem C101_tells : ∃ c, Circuit.new 1 1 [[(1, 0, 0)]] = .ok c ∧ ∀ (d d' : Draws F17 1 0 [[(1, 0, 0)]]) proof out out' t t',
    prove exChal (paramsNew 1 exPoints) [[3], [5]] [[1], [1]] c 1 2 2 d.1.rand [] = .ok ((proof, out), t) →
    prove exChal (paramsNew 1 exPoints) [[14], [5]] [[1], [1]] c 1 2 2 d'.1.rand [] ≠ .ok ((proof, out'), t') := by
  have hk : Nat.clog 2 (max 1 1) = 0 := by decide
  have hl : LegalLayers (2 * 2 ^ Nat.clog 2 (max 1 1)) [[(1, 0, 0)]] := by rw [hk]; simp [LegalLayers, Legal]
  have hc := new_eq 1 1 [[(1, 0, 0)]] hl
  refine ⟨_, hc, fun d d' proof out out' t t' h h' => ?_⟩
  obtain ⟨δ, H⟩ := gap_fixed _ hc 3
  obtain ⟨δ', H'⟩ := gap_fixed _ hc 14
  have k1 := H ⟨exHyDraw, exHyDraw_ok _ (by decide)⟩
  have k2 := H' ⟨exHyDraw, exHyDraw_ok _ (by decide)⟩
  have g1 := H d
  have g2 := H' d'
  have hne : gap ⟨[[(1, 0, 0)]].length + 1, inputNew 1 1 :: layersOf [[(1, 0, 0)]]⟩ exHyDraw 3 ≠
      gap ⟨[[(1, 0, 0)]].length + 1, inputNew 1 1 :: layersOf [[(1, 0, 0)]]⟩ exHyDraw 14 := by decide +kernel
  apply hne
  rw [k1, k2, ← g1, ← g2]
  unfold gap
  rw [h, h']

/-- The full claim is false. -/
theorem C101_violated : ¬ C101_statement F17 F17 := by
  intro H
  have hk : Nat.clog 2 (max 1 1) = 0 := by decide
  obtain ⟨c, hc, hne⟩ := C101_tells
  have o1 : [([1], [3]), ([1], [5])].map (honestOutputs (F := F17) 0 [[(1, 0, 0)]]) = [[9], [25]] := by decide +kernel
  have o2 : [([1], [14]), ([1], [5])].map (honestOutputs (F := F17) 0 [[(1, 0, 0)]]) = [[9], [25]] := by decide +kernel
  obtain ⟨f, hf⟩ := H exChal exChal_oblivious (fun t => exChal_ne _) 1 exPoints
    (exSpans _ (.inl rfl)) (exSpans _ (.inr (.inl rfl))) (exSpans _ (.inr (.inr rfl))) 1 1 _ c hc (by simp) 0 hk.symm
    ⟨⟨0, rfl⟩, .inr (by simp), trivial⟩ [([1], [3]), ([1], [5])] [([1], [14]), ([1], [5])] 1 le_rfl rfl (by simp) (by simp) rfl
    (o2.trans o1.symm) le_rfl 1 2 []
  obtain ⟨proof, t, t', h, h'⟩ := hf ⟨exHyDraw, exHyDraw_ok _ (by decide)⟩
  exact hne _ _ _ _ _ _ _ h h'

end Zkp.Hx
