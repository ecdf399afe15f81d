/- C59: Libra's linear GKR verifier is sound when the values of the wiring predicates are true. -/
import Verif.Proof.LibraSound
import Verif.Proof.Interactive

namespace Zkp.Gkr

open Zkp.Ml Zkp.Spartan Zkp.Sc Polynomial
open Zkp.Cp (bind_inv say_inv challenge_inv ensure_inv orPanic_inv pure_inv)

set_option linter.unusedSectionVars false
set_option linter.unusedSimpArgs false

variable {F : Type} [Field F] {G : Type} [AddCommGroup G] [Module F G] [DecidableEq F] [DecidableEq G]

/-! ### The layers of a circuit -/

theorem Wires.append {a b c : List F} {xs ys : List (List Gate × List F × Nat)} (h : Wires a xs b) (h' : Wires b ys c) :
    Wires a (xs ++ ys) c := by
  induction xs generalizing a with
  | nil => obtain rfl := h; exact h'
  | cons x xs ih => exact ⟨h.1, ih h.2⟩

/-- The values of a layer, filled up with zeros. -/
def padLayer (l : List (Nat × Nat × Nat)) (v : List F) : List F :=
  l.map (gateValue v) ++ List.replicate (2 ^ Nat.clog 2 (padTo l.length) - l.length) 0

/-- The layers with the values below them, filled up with zeros. -/
def paddedUp : List F → Nat → List (List (Nat × Nat × Nat)) → List (List Gate × List F × Nat)
  | _, _, [] => []
  | v, n, l :: ls => (gatesOf l, v, n) :: paddedUp (padLayer l v) (Nat.clog 2 (padTo l.length)) ls

/-- The values of the top layer, filled up with zeros. -/
def paddedTop : List F → List (List (Nat × Nat × Nat)) → List F
  | v, [] => v
  | v, l :: ls => paddedTop (padLayer l v) ls

theorem padLayer_length (l : List (Nat × Nat × Nat)) (v : List F) :
    (padLayer l v).length = 2 ^ Nat.clog 2 (padTo l.length) := by
  have := le_padTo l.length
  simp [padLayer]; omega

theorem legalLayers_mono {n m : Nat} (h : n ≤ m) (raw : List (List (Nat × Nat × Nat))) (hl : LegalLayers n raw) :
    LegalLayers m raw := by
  cases raw with
  | nil => trivial
  | cons l ls => exact ⟨fun g hg => ⟨(hl.1 g hg).1, (hl.1 g hg).2.1.trans_le h, (hl.1 g hg).2.2.trans_le h⟩, hl.2⟩

theorem paddedUp_wires (raw : List (List (Nat × Nat × Nat))) (v : List F) (n : Nat) (hv : v.length = 2 ^ n)
    (hl : LegalLayers (2 ^ n) raw) : Wires (paddedTop v raw) (paddedUp v n raw).reverse v := by
  induction raw generalizing v n with
  | nil => rfl
  | cons l ls ih =>
    rw [paddedUp, List.reverse_cons]
    exact (ih _ _ (padLayer_length l v) (legalLayers_mono (le_padTo _) ls hl.2)).append ⟨⟨l, _, rfl, hv, hl.1, rfl⟩, rfl⟩

theorem padded_getD (raw : List (List (Nat × Nat × Nat))) (v v' : List F) (h : ∀ i, v'.getD i 0 = v.getD i 0) (i : Nat) :
    (paddedTop v' raw).getD i 0 = (topValues v raw).getD i 0 := by
  induction raw generalizing v v' with
  | nil => exact h i
  | cons l ls ih =>
    rw [topValues_cons, paddedTop]
    apply ih
    intro j
    have : l.map (gateValue v') = l.map (gateValue v) := by
      apply List.map_congr_left
      intro g _
      unfold gateValue
      rw [h, h]
    unfold padLayer
    rw [this]
    by_cases hv : j < (l.map (gateValue v)).length
    · rw [List.getD_append _ _ _ _ hv]
    · rw [List.getD_append_right _ _ _ _ (by omega), List.getD_eq_default (l.map (gateValue v)) 0 (by omega), replicate_getD]

/-- The gates of each layer with the size of the layer below, from the output to the input. -/
def wiringOf (c : Circuit) : List (List Gate × Nat) :=
  ((c.layers.zip c.layers.tail).map fun x => (x.2.gates, x.1.bitSize)).reverse

theorem wiringOf_eq (d : Nat) (l0 : Layer) (raw : List (List (Nat × Nat × Nat))) (v : List F) :
    wiringOf ⟨d, l0 :: layersOf raw⟩ = (paddedUp v l0.bitSize raw).reverse.map fun x => (x.1, x.2.2) := by
  unfold wiringOf
  rw [List.map_reverse]
  congr 1
  induction raw generalizing v l0 with
  | nil => rfl
  | cons l ls ih =>
    have := ih ⟨l.length, Nat.clog 2 (padTo l.length), gatesOf l⟩ (padLayer l v)
    simp only [layersOf, List.map_cons, List.tail_cons, List.zip_cons_cons, paddedUp] at this ⊢
    rw [this]

theorem paddedUp_sizes (raw : List (List (Nat × Nat × Nat))) (v w : List F) (n : Nat) :
    (paddedUp v n raw).map (·.2.2) = (upward w n raw).map (·.2.2) := by
  induction raw generalizing v w n with
  | nil => rfl
  | cons l ls ih => simp only [paddedUp, upward, List.map_cons]; rw [ih]

theorem paddedUp_length (raw : List (List (Nat × Nat × Nat))) (v : List F) (n : Nat) :
    (paddedUp v n raw).length = raw.length := by
  induction raw generalizing v n with
  | nil => rfl
  | cons l ls ih => simp [paddedUp, ih]

theorem paddedTop_length (pre : List (List (Nat × Nat × Nat))) (l : List (Nat × Nat × Nat)) (v : List F) :
    (paddedTop v (pre ++ [l])).length = 2 ^ Nat.clog 2 (padTo l.length) := by
  induction pre generalizing v with
  | nil => exact padLayer_length l v
  | cons m ms ih => exact ih _

/-- In the run of the verifier the values that the proof gives for the wiring predicates of the circuit are
true. -/
def TrueWiring (ch : Oracle F G) (c : Circuit) (outputs inputs : List F) (hash : F) (proofs : List (LayerProof F)) :
    Prop :=
  ∀ last resultU gu tr, c.layers.getLast? = some last →
    evalOutput ch outputs last.bitSize (linearStart hash inputs outputs) = .ok ((resultU, gu), tr) →
    WiringTrue ch (wiringOf c) proofs gu (List.replicate gu.length 0) resultU 0 1 0 tr

/-- For every circuit accepted at construction, all values of the input layer, all outputs that differ from
what the circuit computes, and every bound `d ≥ 2` on the degree of the round polynomials, there are sets of at
most `d` field elements, one for every state of the transcript and the challenges so far, such that for every
hash function and every proof: if the verifier accepts and the values given for the wiring predicates are
true, then in its run some challenge fell in the set of that moment.

Partial: the full claim is without the hypothesis about the wiring predicates, which the verifier does not
check (`C59_violated`, `C59_gates`). -/
theorem C59_partial (ni na : Nat) (raw : List (List (Nat × Nat × Nat))) (c : Circuit)
    (hc : Circuit.new ni na raw = .ok c) (hne : raw ≠ []) (v0 : List F) (hv0 : v0.length = 2 ^ (inputNew ni na).bitSize)
    (outputs : List F) (hwrong : ∃ i, outputs.getD i 0 ≠ (topValues v0 raw).getD i 0) (d : Nat) (hd : 2 ≤ d) :
    ∃ bad : Transcript F G → List F → Finset F, (∀ t vs, (bad t vs).card ≤ d) ∧
      ∀ (ch : Oracle F G) (hash : F) (proofs : List (LayerProof F)) (tr' : Transcript F G),
        (∀ p ∈ proofs, ∀ q ∈ p.one.polys ++ p.two.polys, q.length ≤ d + 1) →
        TrueWiring ch c outputs v0 hash proofs →
        linearRun ch c outputs v0 proofs (linearStart hash v0 outputs) = .ok (true, tr') →
        Hit ch bad (linearStart hash v0 outputs) tr' := by
  have hl := (C55_accepted ni na raw).1 ⟨c, hc⟩
  rw [new_eq ni na raw hl] at hc
  obtain rfl := (Except.ok.inj hc).symm
  have hb : 2 * 2 ^ Nat.clog 2 (max na ni) = 2 ^ (inputNew ni na).bitSize := by
    rw [inputNew_bitSize, pow_succ]; omega
  rw [hb] at hl
  obtain ⟨pre, l, rfl⟩ := splitLast raw hne
  obtain ⟨nb, hnb⟩ : ∃ nb, nb = Nat.clog 2 (padTo l.length) := ⟨_, rfl⟩
  obtain ⟨_, t2⟩ := topValues_length pre l v0 (inputNew ni na)
  have hw := paddedUp_wires _ v0 _ hv0 hl
  have htl := paddedTop_length pre l v0
  have hgd := padded_getD (pre ++ [l]) v0 v0 fun _ => rfl
  obtain ⟨top, htop⟩ : ∃ top, top = paddedTop v0 (pre ++ [l]) := ⟨_, rfl⟩
  rw [← htop] at hw htl hgd
  rw [← hnb] at htl t2
  obtain ⟨e, hedef⟩ : ∃ e : List F, e = (List.range (2 ^ nb)).map fun i => outputs.getD i 0 - top.getD i 0 := ⟨_, rfl⟩
  have heD : ∀ i < 2 ^ nb, e.getD i 0 = outputs.getD i 0 - top.getD i 0 := fun i hi => by rw [hedef, getD_map_range _ _ hi]
  have hel : e.length = 2 ^ nb := by rw [hedef]; simp
  obtain ⟨items, hitems⟩ : ∃ items, items = (paddedUp v0 (inputNew ni na).bitSize (pre ++ [l])).reverse := ⟨_, rfl⟩
  rw [← hitems] at hw
  refine ⟨fun t vs => if vs.length < nb then badOut e vs else
    badLayers d items (vs.take nb) (List.replicate nb 0) 1 0 t (vs.drop nb), ?_, ?_⟩
  · intro t vs
    beta_reduce
    split_ifs
    · exact (fewRoots_card _ _).trans (by omega)
    · exact badLayers_card d (by omega) _ _ _ _ _ _ _
  · intro ch hash proofs tr' hp htw hrun
    unfold linearRun at hrun
    obtain ⟨_, _, h1, hrun⟩ := bind_inv hrun
    obtain ⟨_, rfl⟩ := ensure_inv h1
    obtain ⟨last, _, h2, hrun⟩ := bind_inv hrun
    obtain ⟨h2', rfl⟩ := orPanic_inv h2
    obtain ⟨⟨resultU, gu⟩, tr1, h3, hrun⟩ := bind_inv hrun
    obtain ⟨_, _, h4, hrun⟩ := bind_inv hrun
    obtain ⟨h4', rfl⟩ := ensure_inv h4
    obtain ⟨_, _, h5, hrun⟩ := bind_inv hrun
    obtain ⟨_, rfl⟩ := ensure_inv h5
    obtain ⟨⟨ru, rv, fu, fv⟩, tr2, h6, hrun⟩ := bind_inv hrun
    obtain ⟨x, _, h7, hrun⟩ := bind_inv hrun
    obtain ⟨h7', rfl⟩ := orPanic_inv h7
    obtain ⟨y, _, h8, hrun⟩ := bind_inv hrun
    obtain ⟨h8', rfl⟩ := orPanic_inv h8
    obtain ⟨h9, rfl⟩ := pure_inv hrun
    simp only [Bool.and_eq_true, decide_eq_true_eq] at h9
    obtain rfl : last = ⟨l.length, nb, gatesOf l⟩ := by
      simp only [List.length_append, List.length_singleton, Nat.add_sub_cancel] at h2'
      rw [t2] at h2'
      exact (Option.some.inj h2').symm
    have hlast : (inputNew ni na :: layersOf (pre ++ [l])).getLast? = some ⟨l.length, nb, gatesOf l⟩ := by
      simp [layersOf, hnb, List.getLast?_cons]
    have htw := htw _ _ _ _ hlast h3
    rw [wiringOf_eq _ _ _ v0, ← hitems] at htw
    -- the outputs
    simp only at h3
    unfold evalOutput at h3
    obtain ⟨_, _, o1, h3⟩ := bind_inv h3
    obtain ⟨o1', rfl⟩ := ensure_inv o1
    obtain ⟨rs, _, o2, h3⟩ := bind_inv h3
    obtain ⟨res, _, o3, h3⟩ := bind_inv h3
    obtain ⟨o3', rfl⟩ := orPanic_inv o3
    obtain ⟨o4, rfl⟩ := pure_inv h3
    obtain ⟨rfl, rfl⟩ : res = resultU ∧ rs = gu := by simpa using o4
    simp only [decide_eq_true_eq] at o1' h4'
    obtain ⟨d1, d2, d3⟩ := challenges_drawn _ _ _ _ _ _ o2
    have hres : res = mle outputs rs := by
      rw [evalValue_eq _ _ (by simp [d2]; omega), mle_padded] at o3'
      exact (Option.some.inj o3').symm
    have hstart : drawn ch (linearStart hash v0 outputs) = [] := by simp [linearStart, drawn, drawnFrom]
    rw [hstart, List.nil_append] at d1
    have hwrong' : ∃ j, e.getD j 0 ≠ 0 := by
      obtain ⟨i, hi⟩ := hwrong
      have hil : i < 2 ^ nb := by
        by_contra hcon
        apply hi
        rw [← hgd i, List.getD_eq_default _ _ (by omega), List.getD_eq_default _ _ (by omega)]
      refine ⟨i, ?_⟩
      rw [heD i hil, hgd i]
      exact sub_ne_zero.2 hi
    have hsz : items.map (·.2.2) = (List.range ((pre ++ [l]).length + 1 - 1)).map fun d =>
        (((inputNew ni na :: layersOf (pre ++ [l])).map fun l => l.bitSize).getD ((pre ++ [l]).length + 1 - d - 2) 0) := by
      have := upward_sizes (pre ++ [l]) v0 (inputNew ni na)
      rw [hitems, List.map_reverse, paddedUp_sizes _ _ v0, ← List.map_reverse, this]
      simp
    have hne' : items ≠ [] := by
      intro h0
      have := congrArg List.length h0
      rw [hitems, List.length_reverse, paddedUp_length] at this
      simp at this
    have hlen : proofs.length = items.length := by
      rw [hitems, List.length_reverse, paddedUp_length]
      simp at h4'
      simp; omega
    simp only at h6
    rw [← hsz] at h6
    obtain ⟨k1, k2, k3⟩ := layers_after ch items hne' proofs top v0 1 0 res 0 hw hlen ru rv fu fv _ tr2 h6
    rcases out_sound ch _ nb e rs _ _ hel hwrong' o2 with hb | hb
    · obtain ⟨t, lab, c1, c2, c3⟩ := hb
      refine ⟨t, lab, c1, c2.trans k3, ?_⟩
      beta_reduce at c3 ⊢
      have hlt : (drawn ch t).length < nb := by
        have := (drawn_prefix ch c2).length_le
        rw [drawn_chal, d1, d2] at this
        simp at this
        omega
      rw [if_pos hlt]
      rw [hstart] at c3
      exact c3
    · have hmle : mle e rs = mle outputs rs - mle top rs := by
        unfold mle
        rw [← Finset.sum_sub_distrib]
        apply Finset.sum_congr rfl
        intro i hi
        rw [heD i (by rw [← d2]; exact Finset.mem_range.1 hi)]
        ring
      have hfalse : (1 : F) * res + 0 * 0 ≠ 1 * mle top rs + 0 * mle top (List.replicate rs.length 0) := by
        rw [hres]
        simp only [one_mul, zero_mul, add_zero]
        rw [hmle] at hb
        exact sub_ne_zero.1 hb
      rcases layers_sound hd ch items hne' proofs top v0 rs (List.replicate rs.length 0) 1 0 res 0 (by simp)
          (by rw [htl, d2]) hw hlen hp ru rv fu fv _ tr2 h6 htw hfalse with hb | hb
      · obtain ⟨t, lab, c1, c2, c3⟩ := hb
        refine ⟨t, lab, d3.trans c1, c2, ?_⟩
        obtain ⟨w, hw'⟩ := drawn_prefix ch c1
        beta_reduce at c3 ⊢
        rw [← hw', List.drop_left] at c3
        rw [← hw', d1, if_neg (by simp [d2]), ← d2, List.take_left, List.drop_left]
        exact c3
      · exfalso
        rw [evalValue_eq v0 ru k1.le] at h7'
        rw [evalValue_eq v0 rv k2.le] at h8'
        obtain rfl := Option.some.inj h7'
        obtain rfl := Option.some.inj h8'
        rcases hb with hb | hb
        · exact hb h9.1
        · exact hb h9.2

open Classical in
/-- The same as a count, when the challenges are drawn from a tape of `m` field elements (the interactive
protocol): for every prover whose messages before each challenge depend only on the earlier challenges, at most
`m · d · |F| ^ (m - 1)` of the `|F| ^ m` tapes lead to acceptance of wrong outputs with true wiring values.

Partial: as `C59_partial`. -/
theorem C59_count_partial [Fintype F] (ni na : Nat) (raw : List (List (Nat × Nat × Nat))) (c : Circuit)
    (hc : Circuit.new ni na raw = .ok c) (hne : raw ≠ []) (v0 : List F) (hv0 : v0.length = 2 ^ (inputNew ni na).bitSize)
    (outputs : List F) (hwrong : ∃ i, outputs.getD i 0 ≠ (topValues v0 raw).getD i 0) (d : Nat) (hd : 2 ≤ d)
    (hash : F) (m : Nat) (prover : (Fin m → F) → List (LayerProof F))
    (hdeg : ∀ f, ∀ p ∈ prover f, ∀ q ∈ p.one.polys ++ p.two.polys, q.length ≤ d + 1)
    (hm : ∀ f tr, linearRun (tape (G := G) (List.ofFn f)) c outputs v0 (prover f) (linearStart hash v0 outputs) = .ok (true, tr) →
      numChal tr ≤ m)
    (hcausal : ∀ f g tr tr',
      linearRun (tape (G := G) (List.ofFn f)) c outputs v0 (prover f) (linearStart hash v0 outputs) = .ok (true, tr) →
      linearRun (tape (G := G) (List.ofFn g)) c outputs v0 (prover g) (linearStart hash v0 outputs) = .ok (true, tr') →
      ∀ i : Fin m, (∀ j < i, f j = g j) → before i tr = before i tr') :
    (Finset.univ.filter fun f : Fin m → F => TrueWiring (tape (G := G) (List.ofFn f)) c outputs v0 hash (prover f) ∧
      ∃ tr, linearRun (tape (G := G) (List.ofFn f)) c outputs v0 (prover f) (linearStart hash v0 outputs) =
        .ok (true, tr)).card ≤ m * d * Fintype.card F ^ (m - 1) := by
  obtain ⟨bad, hb, h⟩ := C59_partial (G := G) ni na raw c hc hne v0 hv0 outputs hwrong d hd
  refine card_accepted m d bad hb (linearStart hash v0 outputs) rfl
    (fun f tr => TrueWiring (tape (G := G) (List.ofFn f)) c outputs v0 hash (prover f) ∧
      linearRun (tape (G := G) (List.ofFn f)) c outputs v0 (prover f) (linearStart hash v0 outputs) = .ok (true, tr))
    (fun f tr ha => hm f tr ha.2) (fun f g tr tr' ha hb => hcausal f g tr tr' ha.2 hb.2)
    (fun f tr ha => h _ hash (prover f) tr (hdeg f) ha.1 ha.2) _ ?_
  intro f hf
  obtain ⟨h1, tr, h2⟩ := (Finset.mem_filter.1 hf).2
  exact ⟨tr, h1, h2⟩

/-- A proof with true wiring values that the circuit with the single gate `x · y` maps `(1, 1)` to `0`. -/
def exLucky : List (LayerProof F17) := [⟨⟨[[1, 15]], [1, 1, 0, 0]⟩, ⟨[[0, 1]], [1, 0, 0]⟩⟩]

theorem exIn : inputNew 1 1 = ⟨2, 1, [⟨0, 3, 0, 0⟩, ⟨1, 3, 0, 0⟩]⟩ := by
  have h1 : padTo (max 1 1) * 2 = 2 := by decide
  have h2 : Nat.clog 2 2 = 1 := by decide
  unfold inputNew
  simp only [h1, h2]
  rfl

theorem exMul_eq : exMul = ⟨2, [⟨2, 1, [⟨0, 3, 0, 0⟩, ⟨1, 3, 0, 0⟩]⟩, ⟨1, 0, [⟨0, 1, 0, 1⟩]⟩]⟩ := by
  unfold exMul; rw [exIn]; rfl

/-- The transcript of its verification. -/
def exTr : Transcript F17 F17 := linearStart 4 [1, 1] [0] ++ [.frs "poly" [1, 15], .chal "challenge_nextround",
  .frs "claim_final" [1, 1, 0, 0], .frs "poly" [0, 1], .chal "challenge_nextround", .frs "claim_final" [1, 0, 0]]

/-- It is accepted when all challenges are zero, and zero is bad. -/
example : linearRun (fun _ : Transcript F17 F17 => (0 : F17)) exMul [0] [1, 1] exLucky (linearStart 4 [1, 1] [0]) =
      .ok (true, exTr) ∧ TrueWiring (fun _ : Transcript F17 F17 => (0 : F17)) exMul [0] [1, 1] 4 exLucky ∧
    ∃ bad : Transcript F17 F17 → List F17 → Finset F17, (∀ t vs, (bad t vs).card ≤ 2) ∧
      Hit (fun _ => 0) bad (linearStart 4 [1, 1] [0]) exTr := by
  have h1 : linearRun (fun _ : Transcript F17 F17 => (0 : F17)) exMul [0] [1, 1] exLucky (linearStart 4 [1, 1] [0]) =
      .ok (true, exTr) := by rw [exMul_eq]; rfl
  have h2 : TrueWiring (fun _ : Transcript F17 F17 => (0 : F17)) exMul [0] [1, 1] 4 exLucky := by
    rw [exMul_eq]
    intro last resultU gu tr hl ho
    obtain rfl : ⟨1, 0, [⟨0, 1, 0, 1⟩]⟩ = last := Option.some.inj hl
    obtain ⟨⟨rfl, rfl⟩, rfl⟩ : ((0 : F17) = resultU ∧ [] = gu) ∧ linearStart 4 [1, 1] [0] = tr := by
      have : evalOutput (fun _ : Transcript F17 F17 => (0 : F17)) [0] 0 (linearStart 4 [1, 1] [0]) =
        .ok ((0, []), linearStart 4 [1, 1] [0]) := rfl
      rw [this] at ho
      simpa using Except.ok.inj ho
    intro ru rv fu fv tr' hv
    have : verifyLayer (fun _ : Transcript F17 F17 => (0 : F17)) ⟨⟨[[1, 15]], [1, 1, 0, 0]⟩, ⟨[[0, 1]], [1, 0, 0]⟩⟩ 1
      (1 * 0 + 0 * 0) (linearStart 4 [1, 1] [0]) = .ok (([0], [0], 1, 1), exTr) := rfl
    rw [this] at hv
    obtain ⟨⟨rfl, rfl, _⟩, _⟩ : ([0] = ru ∧ [0] = rv ∧ _) ∧ _ := by simpa using Except.ok.inj hv
    refine ⟨?_, ?_, trivial⟩
    · refine congrArg some (?_ : (0 : F17) = _)
      decide
    · refine congrArg some (?_ : (0 : F17) = _)
      decide
  refine ⟨h1, h2, ?_⟩
  obtain ⟨bad, hb, h⟩ := C59_partial (G := F17) 1 1 _ exMul exMul_new (by simp) [(1 : F17), 1] (by rw [exIn]; rfl) [0]
    ⟨0, by decide⟩ 2 le_rfl
  exact ⟨bad, hb, h _ 4 exLucky exTr (by simp [exLucky]) h2 h1⟩

theorem exRun (ch : Oracle F17 F17) (b : Bool) (tr : Transcript F17 F17)
    (h : linearRun ch exMul [0] [1, 1] exLucky (linearStart 4 [1, 1] [0]) = .ok (b, tr)) : tr = exTr := by
  rw [exMul_eq] at h
  unfold linearRun at h
  obtain ⟨_, _, h1, h⟩ := bind_inv h
  obtain ⟨_, rfl⟩ := ensure_inv h1
  obtain ⟨last, _, h2, h⟩ := bind_inv h
  obtain ⟨h2', rfl⟩ := orPanic_inv h2
  obtain rfl := Option.some.inj h2'
  obtain ⟨⟨u, gu⟩, tr1, h3, h⟩ := bind_inv h
  obtain rfl : linearStart 4 [1, 1] [0] = tr1 := by
    have : evalOutput ch [0] 0 (linearStart 4 [1, 1] [0]) = .ok ((0, []), linearStart 4 [1, 1] [0]) := rfl
    simp only at h3
    rw [this] at h3
    exact (Prod.mk.inj (Except.ok.inj h3)).2
  obtain ⟨_, _, h4, h⟩ := bind_inv h
  obtain ⟨_, rfl⟩ := ensure_inv h4
  obtain ⟨_, _, h5, h⟩ := bind_inv h
  obtain ⟨_, rfl⟩ := ensure_inv h5
  obtain ⟨⟨ru, rv, fu, fv⟩, tr2, h6, h⟩ := bind_inv h
  obtain ⟨x, _, h7, h⟩ := bind_inv h
  obtain ⟨_, rfl⟩ := orPanic_inv h7
  obtain ⟨y, _, h8, h⟩ := bind_inv h
  obtain ⟨_, rfl⟩ := orPanic_inv h8
  obtain ⟨_, rfl⟩ := pure_inv h
  change (verifyLayer ch _ 1 _ >>= fun x => pure x) _ = _ at h6
  obtain ⟨⟨ru', rv', fu', fv'⟩, _, h9, h6⟩ := bind_inv h6
  obtain ⟨_, rfl⟩ := pure_inv h6
  obtain ⟨fin1, tr1, fin2, tr2, v1, v2, s1, r1, n1, e1, s2, r2, n2, e2, e3, e4, e5, rfl⟩ :=
    verifyLayer_inv _ _ _ _ _ _ _ _ _ _ h9
  obtain ⟨r, rfl⟩ := List.length_eq_one_iff.1 n1
  obtain ⟨r', rfl⟩ := List.length_eq_one_iff.1 n2
  obtain ⟨_, s1⟩ := s1
  obtain rfl := s1
  obtain ⟨_, s2⟩ := s2
  obtain rfl := s2
  rfl

/-- The count for a prover that always sends this proof. -/
example (s : Finset (Fin 2 → F17)) (hs : ∀ f ∈ s, TrueWiring (tape (G := F17) (List.ofFn f)) exMul [0] [1, 1] 4 exLucky ∧
      ∃ tr, linearRun (tape (G := F17) (List.ofFn f)) exMul [0] [1, 1] exLucky (linearStart 4 [1, 1] [0]) = .ok (true, tr)) :
    s.card ≤ 68 := by
  classical
  refine le_trans (Finset.card_le_card fun f hf => ?_) (C59_count_partial (G := F17) 1 1 _ exMul exMul_new (by simp)
    [(1 : F17), 1] (by rw [exIn]; rfl) [0] ⟨0, by decide⟩ 2 le_rfl 4 2 (fun _ => exLucky) (by simp [exLucky])
    (fun f tr h => by rw [exRun _ _ _ h]; decide) (fun f g tr tr' h h' i _ => by rw [exRun _ _ _ h, exRun _ _ _ h']))
  exact Finset.mem_filter.2 ⟨Finset.mem_univ _, hs f hf⟩

end Zkp.Gkr
