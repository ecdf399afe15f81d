/- Whole runs of Hyrax's prover with challenges chosen beforehand. -/
import Verif.Proof.HyraxHidingLayers
import Verif.Proof.HidingInput
import Verif.Proof.HidingEquiv
import Verif.Proof.SpartanHidingSat
import Verif.Props.HyraxComplete

namespace Zkp.Hx

open Zkp.Ml Zkp.Spartan Zkp.Sc Zkp.Gkr Zkp.Cp

set_option linter.unusedSectionVars false
set_option linter.unusedSimpArgs false

variable {F : Type} [Field F] {G : Type} [AddCommGroup G] [Module F G] [DecidableEq F] [DecidableEq G]

theorem instances_yields (c : Circuit) (f : List F × List F → List (List F)) :
    ∀ (ps : List (List F × List F)), (∀ p ∈ ps, c.evaluate p.1 p.2 = .ok (f p)) → ∀ n,
      Yields (evalInstances c ps : Vf F G _) n (ps.map f) (n + 2 * ps.length)
  | [], _, n => Yields.pure
  | (i, w) :: ps, h, n => by
    have he := h (i, w) (by simp)
    simp only at he
    have ih := instances_yields c f ps (fun p hp => h p (by simp [hp])) (n + 1 + 1)
    unfold evalInstances
    rw [show n + 2 * ((i, w) :: ps).length = n + 1 + 1 + 2 * ps.length by simp; omega]
    refine Yields.say.bind ?_
    rw [he]
    exact Yields.say.bind (ih.bind Yields.pure)

theorem outputs_yields {ch : Oracle F G} (hob : Oblivious ch) (outputs : List (List F)) (a b : Nat) (hn : outputs.length = 2 ^ a)
    (ho : ∀ o ∈ outputs, o.length = 2 ^ b) (n : Nat) :
    Yields (evalOutputs ch outputs) n (mle (outputs.map fun o => mle o (chals ch n b)) (chals ch (n + b) a), chals ch (n + b) a,
      chals ch n b) (n + b + a) := by
  obtain ⟨o0, h0⟩ : ∃ o, outputs[0]? = some o := ⟨_, List.getElem?_eq_getElem (by rw [hn]; positivity)⟩
  have hl0 := ho o0 (List.mem_of_getElem? h0)
  unfold evalOutputs
  refine (Yields.orPanic h0).bind ?_
  simp only [hl0, hn, padTo_two_pow, Nat.clog_pow 2 _ (show 1 < 2 by decide)]
  refine (challenges_yields hob _ n b).bind ((Yields.ensure (by
    rw [List.all_eq_true]
    intro o h
    simp [ho o h])).bind ((challenges_yields hob _ (n + b) a).bind (yields_pure ?_)))
  have : (outputs.map fun o => (List.zipWith (· * ·) o (evalEq (chals ch n b))).sum) = outputs.map fun o => mle o (chals ch n b) :=
    List.map_congr_left fun o h => zip_mle o _ (by rw [ho o h, chals_length])
  rw [this, zip_mle _ _ (by rw [List.length_map, hn, chals_length])]

/-- Instances whose evaluation succeeds, with the sizes the prover needs: `L + 1` layers above the inputs. -/
structure Ready (c : Circuit) (L k : Nat) (s : Nat → Nat) (logN : Nat) (f : List F × List F → List (List F))
    (ps : List (List F × List F)) : Prop where
  setup : Setup c (L + 1) s (ps.map f) logN
  s0 : s 0 = k + 1
  taper : ∀ i < L + 1, s i = 0 ∨ s (i + 1) ≤ s i
  cnt : ps.length = 2 ^ logN
  eval : ∀ p ∈ ps, c.evaluate p.1 p.2 = .ok (f p)
  last : ∀ p ∈ ps, (f p).getLastD [] = (f p).getD (L + 1) []
  size : ∀ p ∈ ps, ((f p).getLastD []).length = 2 ^ s (L + 1)
  wit : (inputVec (ps.map Prod.snd)).length = 2 ^ (logN + k)
  val : ∀ qa q : List F, q.length = k + 1 → layerVal s (ps.map f) 0 qa q =
    (1 - q.headD 0) * mle (inputVec (ps.map Prod.snd)) (qa ++ q.tail) +
      q.headD 0 * mle (inputVec (ps.map Prod.fst)) (qa ++ q.tail)

/-- Parameters that are large enough, with blinding generators that generate the group. -/
structure Good (F : Type) [Field F] [Module F G] (params : Params G) (m : Nat) : Prop where
  p1 : params.pc.genN.h = params.pc.gen1.h
  p2 : params.pc.gen1 = params.gen1
  p3 : 2 ^ (m - m / 2) ≤ params.pc.n
  p4 : 2 ^ (m - m / 2) ≤ params.pc.genN.generators.length
  p5 : params.pc.gen1.generators ≠ []
  s1 : Spans F params.gen1.h
  s3 : Spans F params.gen3.h
  s4 : Spans F params.gen4.h

/-- The outputs of the instances. -/
def outs (f : List F × List F → List (List F)) (ps : List (List F × List F)) : List (List F) := ps.map fun p => (f p).getLastD []

/-- The transcript before the outputs are evaluated. -/
def startN (N logN : Nat) : Nat := N + 1 + 1 + 2 * 2 ^ logN + 1

def startQ (ch : Oracle F G) (N logN sz : Nat) : List F := chals ch (startN N logN) sz

def startQa (ch : Oracle F G) (N logN sz : Nat) : List F := chals ch (startN N logN + sz) logN

def startClaim (ch : Oracle F G) (N logN sz : Nat) (os : List (List F)) : F :=
  mle (os.map fun o => mle o (startQ ch N logN sz)) (startQa ch N logN sz)

theorem startQ_length (ch : Oracle F G) (N logN sz : Nat) : (startQ ch N logN sz).length = sz := chals_length _ _ _

theorem startQa_length (ch : Oracle F G) (N logN sz : Nat) : (startQa ch N logN sz).length = logN := chals_length _ _ _

theorem Ready.claim {c : Circuit} {L k : Nat} {s : Nat → Nat} {logN : Nat} {f : List F × List F → List (List F)}
    {ps : List (List F × List F)} (R : Ready c L k s logN f ps) (ch : Oracle F G) (N : Nat) :
    startClaim ch N logN (s (L + 1)) (outs f ps) =
      layerVal s (ps.map f) (L + 1) (startQa ch N logN (s (L + 1))) (startQ ch N logN (s (L + 1))) * 1 +
        layerVal s (ps.map f) (L + 1) (startQa ch N logN (s (L + 1))) (startQ ch N logN (s (L + 1))) * 0 := by
  rw [mul_one, mul_zero, add_zero, layerVal_eq _ _ _ _ (startQ ch N logN (s (L + 1))) (startQ_length _ _ _ _), startClaim, outs, List.map_map, List.map_map]
  congr 1
  exact List.map_congr_left fun p hp => by simp only [Function.comp_def]; rw [R.last p hp]

/-- A run of the prover, from its parts. -/
theorem prove_yields {ch : Oracle F G} (ho : Oblivious ch) (params : Params G) {c : Circuit} {L k : Nat} {s : Nat → Nat} {logN : Nat}
    {f : List F × List F → List (List F)} {ps : List (List F × List F)} (R : Ready c L k s logN f ps) (circuitHash paramHash : F)
    (rand : HyraxRand F) (hw : rand.witness.length = 2 ^ ((logN + k) / 2)) (N N2 N3 N4 : Nat) (proofs : List (ZkProof F G))
    (fin : PSt F G) (o0 o1 : DotProof F G × G × Spartan.EqProof F G)
    (Z : Yields (layersProve ch params c (2 ^ logN) (ps.map f) rand.layers (L + 1) 0
      ⟨startClaim ch N logN (s (L + 1)) (outs f ps), commitVec params.gen1.generators [startClaim ch N logN (s (L + 1)) (outs f ps)]
        params.gen1.h (0 : F), 0, 0, 0, 0, 0, 1, 0, startQa ch N logN (s (L + 1)), startQ ch N logN (s (L + 1)),
        startQ ch N logN (s (L + 1))⟩) (startN N logN + s (L + 1) + logN + 1) (proofs, fin) N2)
    (Y0 : Yields (inputProve ch params (inputVec (ps.map Prod.snd)) rand.witness fin.qa fin.ql fin.x fin.rx rand.in0) N2 o0 N3)
    (Y1 : Yields (inputProve ch params (inputVec (ps.map Prod.snd)) rand.witness fin.qa fin.qr fin.y fin.ry rand.in1) N3 o1 N4) :
    Yields (prove ch params (ps.map Prod.snd) (ps.map Prod.fst) c circuitHash paramHash (2 ^ logN) rand) N
      (⟨rowComms params.pc.genN.generators params.pc.genN.h (logN + k) (inputVec (ps.map Prod.snd)) rand.witness, proofs, o0.1, o0.2.1,
        o0.2.2, o1.1, o1.2.1, o1.2.2⟩, outs f ps) N4 := by
  have hzip : ((ps.map Prod.fst).zip (ps.map Prod.snd)).take (2 ^ logN) = ps := by
    rw [List.zip_map', List.take_of_length_le (by simp [R.cnt])]; simp
  have htake : (ps.map Prod.snd).take (2 ^ logN) = ps.map Prod.snd := List.take_of_length_le (by simp [R.cnt])
  have hpos : 0 < 2 ^ logN := by positivity
  have hdep := R.setup.dep
  have I := instances_yields (G := G) c f ps R.eval (N + 1 + 1)
  rw [R.cnt] at I
  have hO : (ps.map f).map (fun e => e.getLastD []) = outs f ps := by rw [List.map_map]; rfl
  have O := outputs_yields ho (outs f ps) logN (s (L + 1)) (by simpa [outs] using R.cnt) (by
    intro o h
    obtain ⟨p, hp, rfl⟩ := List.mem_map.1 h
    exact R.size p hp) (startN N logN)
  unfold prove
  refine Yields.say.bind (Yields.say.bind ((Yields.ensure (by simp [R.cnt])).bind ?_))
  rw [hzip, htake]
  refine I.bind ((Yields.ensure (decide_eq_true (padTo_two_pow logN))).bind ((Yields.ensure (decide_eq_true hpos)).bind
    ((pack_yields _ _ (logN + k) _ rand.witness R.wit hw _).bind (Yields.say.bind ?_))))
  simp only [hO]
  refine O.bind (Yields.say.bind ((Yields.ensure (by simp [hdep])).bind ?_))
  rw [show c.depth - 1 = L + 1 by omega]
  exact Z.bind (Y0.bind (Y1.bind Yields.pure))

theorem draw_layers {logN g n : Nat} {ls : List (ZkDraw F)} (h : List.Forall₂ (ZkDraw.Ok logN) ls (List.replicate n g)) :
    ls.length = n ∧ ∀ i < n, (ls.getD i noZk).Ok logN g := by
  have hl := h.length_eq
  rw [List.length_replicate] at hl
  refine ⟨hl, fun i hi => ?_⟩
  have := (List.forall₂_iff_get.1 h).2 i (by omega) (by simpa using hi)
  rw [List.getD_eq_getElem _ _ (by omega)]
  simpa using this

theorem layers_draw {logN g n : Nat} {D : Nat → ZkDraw F} (h : ∀ i < n, (D i).Ok logN g) :
    List.Forall₂ (ZkDraw.Ok logN) ((List.range n).map D) (List.replicate n g) := by
  refine List.forall₂_iff_get.2 ⟨by simp, fun i h1 h2 => ?_⟩
  simpa using h i (by simpa using h1)

set_option maxHeartbeats 1000000 in
theorem run_same (h2 : (2 : F) ≠ 0) (h3 : (3 : F) ≠ 0) {ch : Oracle F G} (ho : Oblivious ch) (hne : ∀ t, ch (t ++ [.chal "x"]) ≠ 0)
    (params : Params G) {c : Circuit} {L k : Nat} {s : Nat → Nat} {logN : Nat} (gd : Good F params (logN + k))
    {f : List F × List F → List (List F)} {ps ps' : List (List F × List F)} (R : Ready c L k s logN f ps)
    (R' : Ready c L k s logN f ps') (hflat : ∀ i ≤ L + 1, s i = k + 1) (hin : ps'.map Prod.fst = ps.map Prod.fst)
    (hout : outs f ps' = outs f ps) (circuitHash paramHash : F) (d : Draw F) (hd : d.Ok logN k (List.replicate (L + 1) (k + 1)))
    (N : Nat) :
    ∃ (d' : Draw F) (proof : HyraxProof F G) (N' : Nat), d'.Ok logN k (List.replicate (L + 1) (k + 1)) ∧
      Yields (prove ch params (ps.map Prod.snd) (ps.map Prod.fst) c circuitHash paramHash (2 ^ logN) d.rand) N (proof, outs f ps) N' ∧
      Yields (prove ch params (ps'.map Prod.snd) (ps'.map Prod.fst) c circuitHash paramHash (2 ^ logN) d'.rand) N
        (proof, outs f ps) N' := by
  obtain ⟨p1, p2, p3, p4, p5, s1, s3, s4⟩ := gd
  obtain ⟨dw, dl, di0, di1⟩ := hd
  obtain ⟨hll, hD⟩ := draw_layers dl
  have hsL := hflat (L + 1) le_rfl
  have hcl := R.claim ch N
  have hcl' := R'.claim ch N
  rw [hout] at hcl'
  obtain ⟨D', prf, fin, fin', N2, a0, Z, Z', a1, a2, a3, a4, a5, a6, a7, a8, a9, a10, a11, a12⟩ := layers_same h2 h3 ho params s1 s3 s4
    R.setup R'.setup (k + 1) hflat (fun i => d.layers.getD i noZk) hD L 0 _ 0 0 0 0 0 _ 0 0 0 0 0 1 0
    (commitVec params.gen1.generators [startClaim ch N logN (s (L + 1)) (outs f ps)] params.gen1.h (0 : F))
    (startQa ch N logN (s (L + 1))) (startQ ch N logN (s (L + 1))) (startQ ch N logN (s (L + 1)))
    (startN N logN + s (L + 1) + logN + 1) (by omega) (startQa_length _ _ _ _) ((startQ_length _ _ _ _).trans hsL)
    ((startQ_length _ _ _ _).trans hsL) hcl hcl' rfl rfl
  rw [← p2] at a11 a12
  have hx := R.val fin.qa fin.ql a5
  have hy := R.val fin.qa fin.qr a6
  have hx' := R'.val fin.qa fin.ql a5
  have hy' := R'.val fin.qa fin.qr a6
  rw [hin] at hx' hy'
  rw [← a7] at hx
  rw [← a8] at hy
  rw [← a9] at hx'
  rw [← a10] at hy'
  obtain ⟨bw, hbw, hrows⟩ := pack_same params.pc.genN.generators params.pc.genN.h (by rw [p1, p2]; exact s1) (logN + k)
    (inputVec (ps.map Prod.snd)) (inputVec (ps'.map Prod.snd)) d.witness
  obtain ⟨i0, o0, e0, X0, X0'⟩ := input_same ho hne params p1 (by rw [p2]; exact s1) p5 (logN + k) _ _ d.witness bw fin.qa fin.ql
    R.wit R'.wit dw hbw (by omega) (by simp [a4, a5]) p4 p3 hrows _ fin.rx _ fin'.rx _ hx hx' a11 d.in0 di0 N2
  obtain ⟨i1, o1, e1, X1, X1'⟩ := input_same ho hne params p1 (by rw [p2]; exact s1) p5 (logN + k) _ _ d.witness bw fin.qa fin.qr
    R.wit R'.wit dw hbw (by omega) (by simp [a4, a6]) p4 p3 hrows _ fin.ry _ fin'.ry _ hy hy' a12 d.in1 di1 _
  obtain ⟨d', hd'⟩ : ∃ d' : Draw F, d' = ⟨bw, (List.range (L + 1)).map D', i0, i1⟩ := ⟨_, rfl⟩
  rw [layersProve_congr ch params c _ _ _ d'.rand.layers _ _ _ (fun i _ h => by
    rw [hd']; simp only [Draw.rand]; rw [range_getD D' (L + 1) noZk i (by omega)])] at Z'
  rw [← a2, ← a1] at X0'
  rw [← a3, ← a1] at X1'
  have A := prove_yields ho params R circuitHash paramHash d.rand dw N _ _ _ prf fin o0 o1 Z X0 X1
  have A' := prove_yields ho params R' circuitHash paramHash d'.rand (by rw [hd']; exact hbw) N N2 _ _ prf fin' o0 o1
    (by rw [hout]; exact Z') (by rw [hd']; exact X0') (by rw [hd']; exact X1')
  rw [hout] at A'
  refine ⟨d', _, _, ?_, A, ?_⟩
  · rw [hd']; exact ⟨hbw, layers_draw fun i hi => a0 i (by omega) (by omega), e0, e1⟩
  · have e : rowComms params.pc.genN.generators params.pc.genN.h (logN + k) (inputVec (ps'.map Prod.snd)) d'.rand.witness =
      rowComms params.pc.genN.generators params.pc.genN.h (logN + k) (inputVec (ps.map Prod.snd)) d.rand.witness := by
      rw [hd']; exact hrows
    rw [e] at A'
    exact A'

set_option maxHeartbeats 1000000 in
theorem run_inj (h2 : (2 : F) ≠ 0) (h3 : (3 : F) ≠ 0) {ch : Oracle F G} (ho : Oblivious ch) (hne : ∀ t, ch (t ++ [.chal "x"]) ≠ 0)
    (params : Params G) {c : Circuit} {L k : Nat} {s : Nat → Nat} {logN : Nat} (gd : Good F params (logN + k))
    {f : List F × List F → List (List F)} {ps : List (List F × List F)} (R : Ready c L k s logN f ps)
    (hflat : ∀ i ≤ L + 1, s i = k + 1) (circuitHash paramHash : F) (d d' : Draw F)
    (hd : d.Ok logN k (List.replicate (L + 1) (k + 1))) (hd' : d'.Ok logN k (List.replicate (L + 1) (k + 1)))
    (N n1 n2 : Nat) (out : HyraxProof F G × List (List F))
    (H : Yields (prove ch params (ps.map Prod.snd) (ps.map Prod.fst) c circuitHash paramHash (2 ^ logN) d.rand) N out n1)
    (H' : Yields (prove ch params (ps.map Prod.snd) (ps.map Prod.fst) c circuitHash paramHash (2 ^ logN) d'.rand) N out n2) :
    d = d' := by
  obtain ⟨p1, p2, p3, p4, p5, s1, s3, s4⟩ := gd
  have hsL := hflat (L + 1) le_rfl
  have hcl := R.claim ch N
  have parts : ∀ d : Draw F, d.Ok logN k (List.replicate (L + 1) (k + 1)) →
      ∃ (prf : List (ZkProof F G)) (fin : PSt F G) (o0 o1 : DotProof F G × G × Spartan.EqProof F G) (N2 N3 N4 : Nat),
        Yields (layersProve ch params c (2 ^ logN) (ps.map f) d.rand.layers (L + 1) 0
          ⟨startClaim ch N logN (s (L + 1)) (outs f ps), commitVec params.gen1.generators [startClaim ch N logN (s (L + 1)) (outs f ps)]
            params.gen1.h (0 : F), 0, 0, 0, 0, 0, 1, 0, startQa ch N logN (s (L + 1)), startQ ch N logN (s (L + 1)),
            startQ ch N logN (s (L + 1))⟩) (startN N logN + s (L + 1) + logN + 1) (prf, fin) N2 ∧
        fin.qa.length = logN ∧ fin.ql.length = k + 1 ∧ fin.qr.length = k + 1 ∧
        Yields (inputProve ch params (inputVec (ps.map Prod.snd)) d.witness fin.qa fin.ql fin.x fin.rx d.in0) N2 o0 N3 ∧
        Yields (inputProve ch params (inputVec (ps.map Prod.snd)) d.witness fin.qa fin.qr fin.y fin.ry d.in1) N3 o1 N4 ∧
        Yields (prove ch params (ps.map Prod.snd) (ps.map Prod.fst) c circuitHash paramHash (2 ^ logN) d.rand) N
          (⟨rowComms params.pc.genN.generators params.pc.genN.h (logN + k) (inputVec (ps.map Prod.snd)) d.witness, prf, o0.1, o0.2.1,
            o0.2.2, o1.1, o1.2.1, o1.2.2⟩, outs f ps) N4 := by
    rintro d ⟨dw, dl, di0, di1⟩
    obtain ⟨hll, hD⟩ := draw_layers dl
    obtain ⟨-, prf, fin, -, N2, -, Z, -, -, -, -, a4, a5, a6, a7, a8, -, -, -, -⟩ := layers_same h2 h3 ho params s1 s3 s4
      R.setup R.setup (k + 1) hflat (fun i => d.layers.getD i noZk) hD L 0 _ 0 0 0 0 0 _ 0 0 0 0 0 1 0
      (commitVec params.gen1.generators [startClaim ch N logN (s (L + 1)) (outs f ps)] params.gen1.h (0 : F))
      (startQa ch N logN (s (L + 1))) (startQ ch N logN (s (L + 1))) (startQ ch N logN (s (L + 1)))
      (startN N logN + s (L + 1) + logN + 1) (by omega) (startQa_length _ _ _ _) ((startQ_length _ _ _ _).trans hsL)
      ((startQ_length _ _ _ _).trans hsL) hcl hcl rfl rfl
    have hx := R.val fin.qa fin.ql a5
    have hy := R.val fin.qa fin.qr a6
    rw [← a7] at hx
    rw [← a8] at hy
    obtain ⟨-, o0, -, X0, -⟩ := input_same ho hne params p1 (by rw [p2]; exact s1) p5 (logN + k) _ _ d.witness d.witness fin.qa fin.ql
      R.wit R.wit dw dw (by omega) (by simp [a4, a5]) p4 p3 rfl _ fin.rx _ fin.rx _ hx hx rfl d.in0 di0 N2
    obtain ⟨-, o1, -, X1, -⟩ := input_same ho hne params p1 (by rw [p2]; exact s1) p5 (logN + k) _ _ d.witness d.witness fin.qa fin.qr
      R.wit R.wit dw dw (by omega) (by simp [a4, a6]) p4 p3 rfl _ fin.ry _ fin.ry _ hy hy rfl d.in1 di1 _
    exact ⟨prf, fin, o0, o1, _, _, _, Z, a4, a5, a6, X0, X1,
      prove_yields ho params R circuitHash paramHash d.rand dw N _ _ _ prf fin o0 o1 Z X0 X1⟩
  obtain ⟨prf, fin, o0, o1, N2, N3, N4, Z, la, ll, lr, X0, X1, A⟩ := parts d hd
  obtain ⟨prf', fin', o0', o1', N2', N3', N4', Z', la', ll', lr', X0', X1', A'⟩ := parts d' hd'
  have e := (Prod.mk.inj ((A.unique H).1.trans (A'.unique H').1.symm)).1
  simp only [HyraxProof.mk.injEq] at e
  obtain ⟨f1, rfl, f2, f3, f4, f5, f6, f7⟩ := e
  obtain rfl : o0 = o0' := Prod.ext f2 (Prod.ext f3 f4)
  obtain rfl : o1 = o1' := Prod.ext f5 (Prod.ext f6 f7)
  have g1 := pack_inj _ _ (by rw [p1, p2]; exact s1) (logN + k) _ _ _ hd.1 hd'.1 f1
  obtain ⟨hll, hD⟩ := draw_layers hd.2.1
  obtain ⟨hll', hD'⟩ := draw_layers hd'.2.1
  have g2 := layers_inj h2 h3 ho params s1 s3 s4 R.setup (k + 1) hflat (fun i => d.layers.getD i noZk)
    (fun i => d'.layers.getD i noZk) hD hD' L 0 _ 0 0 0 0 0 1 0 _ _ _ _ _ _ _ prf fin fin' (by omega) (startQa_length _ _ _ _)
    ((startQ_length _ _ _ _).trans hsL) ((startQ_length _ _ _ _).trans hsL) hcl rfl Z Z'
  have g3 : d.layers = d'.layers := eq_of_getD noZk hll hll' fun i hi => g2 i (by omega) (by omega)
  have e' : d.rand.layers = d'.rand.layers := by simp only [Draw.rand]; rw [g3]
  rw [← e'] at Z'
  obtain ⟨g4, rfl⟩ := Z.unique Z'
  obtain rfl := (Prod.mk.inj g4).2
  rw [← g1] at X0' X1'
  have g5 := input_inj ho hne params p1 (by rw [p2]; exact s1) p5 (logN + k) _ d.witness fin.qa fin.ql R.wit hd.1 (by omega)
    (by simp [la, ll]) p4 p3 _ _ d.in0 d'.in0 hd.2.2.1 hd'.2.2.1 _ _ _ _ X0 X0'
  rw [← g5] at X0'
  obtain ⟨-, rfl⟩ := X0.unique X0'
  have g6 := input_inj ho hne params p1 (by rw [p2]; exact s1) p5 (logN + k) _ d.witness fin.qa fin.qr R.wit hd.1 (by omega)
    (by simp [la, lr]) p4 p3 _ _ d.in1 d'.in1 hd.2.2.2 hd'.2.2.2 _ _ _ _ X1 X1'
  cases d; cases d'
  simp only at g1 g3 g5 g6
  rw [g1, g3, g5, g6]

end Zkp.Hx
