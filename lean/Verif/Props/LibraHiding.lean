/- C100: Libra's hiding protocol reveals nothing about the witness. -/
import Verif.Proof.LibraHidingLayers
import Verif.Proof.HidingInput
import Verif.Proof.SpartanHidingSat
import Verif.Proof.HidingEquiv

namespace Zkp.Lz

open Zkp.Ml Zkp.Spartan Zkp.Sc Zkp.Gkr Zkp.Cp Zkp.Hx

set_option linter.unusedSectionVars false
set_option linter.unusedSimpArgs false

variable {F : Type} [Field F] {G : Type} [AddCommGroup G] [Module F G] [DecidableEq F] [DecidableEq G]

theorem evalOutput_yields {ch : Oracle F G} (ho : Oblivious ch) (out : List F) (bits : Nat) (h : out.length ≤ 2 ^ bits) (n : Nat) :
    Yields (evalOutput ch out bits) n (mle out (chals ch n bits), chals ch n bits) (n + bits) := by
  unfold evalOutput
  refine (Yields.ensure (by simpa using h)).bind ((challenges_yields ho _ _ _).bind ((Yields.orPanic ?_).bind Yields.pure))
  rw [evalValue_eq _ _ (by rw [chals_length]; simp; omega), mle_pad]

/-- A run of the prover, from its parts. -/
theorem run_yields {ch : Oracle F G} (ho : Oblivious ch) (params : Params G) (k : Nat) (l0 : Layer) (hb : l0.bitSize = k + 1)
    (pre : List (List (Nat × Nat × Nat))) (l : List (Nat × Nat × Nat)) (v0 w : List F) (hw : w.length = 2 ^ k) (d : Draw F)
    (hd : d.witness.length = 2 ^ (k / 2)) (N N2 N3 N4 : Nat) (ps : List (ZkLayer F G)) (fin : Final F)
    (o0 o1 : DotProof F G × G × Spartan.EqProof F G) (bits : Nat) (hbits : bits = Nat.clog 2 (padTo l.length))
    (Z : Yields (zkLayersProve ch params (fns d.layers) (upward v0 (k + 1) (pre ++ [l])).reverse 0 (chals ch (N + 1) bits)
      (List.replicate bits 0) (mle (topValues v0 (pre ++ [l])) (chals ch (N + 1) bits)) 0 1 0 0) (N + 1 + bits) (ps, fin) N2)
    (Y0 : Yields (inputProve ch params w d.witness [] fin.gu fin.x fin.blindX d.in0) N2 o0 N3)
    (Y1 : Yields (inputProve ch params w d.witness [] fin.gv fin.y fin.blindY d.in1) N3 o1 N4) :
    Yields (zkProveRun ch params ⟨(pre ++ [l]).length + 1, l0 :: layersOf (pre ++ [l])⟩ (v0 :: circuitValues v0 (pre ++ [l])) w
      d.rand) N ⟨rowComms params.pc.genN.generators params.pc.genN.h k w d.witness, ps, o0.1, o0.2.1, o0.2.2, o1.1, o1.2.1,
        o1.2.2⟩ N4 := by
  obtain ⟨t1, t2⟩ := topValues_length pre l v0 l0
  have hout : (topValues v0 (pre ++ [l])).length ≤ 2 ^ bits := by rw [t1, hbits]; exact le_padTo _
  have ht : (v0 :: circuitValues v0 (pre ++ [l])).getLastD [] = topValues v0 (pre ++ [l]) := rfl
  unfold zkProveRun
  refine (pack_yields _ _ k w d.witness hw hd N).bind (Yields.say.bind ((Yields.ensure (by simp)).bind
    ((Yields.orPanic (by simpa using t2)).bind ?_)))
  rw [ht, ← hbits]
  refine (evalOutput_yields ho _ bits hout (N + 1)).bind ?_
  simp only [layerInputs_eq, hb, chals_length]
  exact Z.bind (Y0.bind (Y1.bind Yields.pure))

theorem upward_length (raw : List (List (Nat × Nat × Nat))) (v : List F) (n : Nat) : (upward v n raw).length = raw.length := by
  induction raw generalizing v n with
  | nil => rfl
  | cons a l ih => simp [upward, ih]

/-- The sizes of the layers below each layer, from the output down. -/
def sizes (c : Circuit) : List Nat := (layerParts c).map (·.2)

theorem run_same (h2 : (2 : F) ≠ 0) {ch : Oracle F G} (ho : Oblivious ch) (hne : ∀ t, ch (t ++ [.chal "x"]) ≠ 0)
    (params : Params G) (p1 : params.pc.genN.h = params.pc.gen1.h) (p2 : params.pc.gen1 = params.gen1)
    (hs1 : Spans F params.gen1.h) (hs3 : Spans F params.gen3.h) (k : Nat) (p3 : 2 ^ (k - k / 2) ≤ params.pc.n)
    (p4 : 2 ^ (k - k / 2) ≤ params.pc.genN.generators.length) (p5 : params.pc.gen1.generators ≠ []) (l0 : Layer)
    (hb : l0.bitSize = k + 1) (pre : List (List (Nat × Nat × Nat))) (l : List (Nat × Nat × Nat))
    (hl : LegalLayers (2 ^ (k + 1)) (pre ++ [l])) (hwide : WideLayers (pre ++ [l])) (inputs w w' : List F)
    (hi : inputs.length = 2 ^ k) (hw : w.length = 2 ^ k) (hw' : w'.length = 2 ^ k)
    (hx : ∀ w : List F, w.length = 2 ^ k → ∀ q : List F, q.length = k + 1 → mle (w ++ inputs) q =
      (1 - q.headD 0) * mle w ([] ++ q.tail) + q.headD 0 * mle inputs ([] ++ q.tail))
    (hout : topValues (w' ++ inputs) (pre ++ [l]) = topValues (w ++ inputs) (pre ++ [l]))
    (d : Draw F) (hd : d.Ok k (sizes ⟨(pre ++ [l]).length + 1, l0 :: layersOf (pre ++ [l])⟩)) (N : Nat) :
    ∃ (d' : Draw F) (proof : ZkGkrProof F G) (N' : Nat), d'.Ok k (sizes ⟨(pre ++ [l]).length + 1, l0 :: layersOf (pre ++ [l])⟩) ∧
      Yields (zkProveRun ch params ⟨(pre ++ [l]).length + 1, l0 :: layersOf (pre ++ [l])⟩
        ((w ++ inputs) :: circuitValues (w ++ inputs) (pre ++ [l])) w d.rand) N proof N' ∧
      Yields (zkProveRun ch params ⟨(pre ++ [l]).length + 1, l0 :: layersOf (pre ++ [l])⟩
        ((w' ++ inputs) :: circuitValues (w' ++ inputs) (pre ++ [l])) w' d'.rand) N proof N' := by
  have hv : ∀ w : List F, w.length = 2 ^ k → (w ++ inputs).length = 2 ^ (k + 1) := fun w hw => by
    rw [List.length_append, hw, hi, pow_succ]; omega
  have hparts : ∀ v : List F, ((upward v (k + 1) (pre ++ [l])).reverse.map fun x => (x.1, x.2.2)) =
      layerParts ⟨(pre ++ [l]).length + 1, l0 :: layersOf (pre ++ [l])⟩ := fun v => by rw [← hb]; exact upward_parts _ v l0
  have hsz : ∀ v : List F, (upward v (k + 1) (pre ++ [l])).reverse.map (fun x => x.2.2) =
      sizes ⟨(pre ++ [l]).length + 1, l0 :: layersOf (pre ++ [l])⟩ := fun v => by
    rw [sizes, ← hparts v, List.map_map]; rfl
  obtain ⟨bits, hbits⟩ : ∃ bits, bits = Nat.clog 2 (padTo l.length) := ⟨_, rfl⟩
  obtain ⟨t1, t2⟩ := topValues_length pre l (w ++ inputs) l0
  have hlen : (topValues (w ++ inputs) (pre ++ [l])).length ≤ 2 ^ bits := by rw [t1, hbits]; exact le_padTo _
  obtain ⟨dw, dl, di0, di1⟩ := hd
  rw [← hsz (w ++ inputs)] at dl
  have hwd := upward_wide (pre ++ [l]) (w ++ inputs) (k + 1) (hv w hw) (by omega) hwide
  obtain ⟨L', ps, ru, rv, bx, by', bx', by'', N2, a1, a2, a3, a4, a5, Z, Z'⟩ := layers_same h2 ho params hs1 hs3
    (upward (w ++ inputs) (k + 1) (pre ++ [l])).reverse
    (by rw [Ne, List.reverse_eq_nil_iff, ← List.length_eq_zero_iff, upward_length]; simp)
    (fun x hx => (hwd x (List.mem_reverse.1 hx)).2) (upward (w' ++ inputs) (k + 1) (pre ++ [l])).reverse
    (by rw [hparts, hparts]) _ _ (w ++ inputs) (w' ++ inputs) (chals ch (N + 1) bits) (List.replicate bits 0) 1 0
    (mle (topValues (w ++ inputs) (pre ++ [l])) (chals ch (N + 1) bits)) 0 0
    (mle (topValues (w' ++ inputs) (pre ++ [l])) (chals ch (N + 1) bits)) 0 0 (by simp [chals_length])
    (by rw [chals_length]; exact hlen) (upward_chain _ _ _ (hv w hw) hl hwide.full) (upward_chain _ _ _ (hv w' hw') hl hwide.full)
    (by simp) (by simp) (by rw [hout]) d.layers dl (N + 1 + bits)
  rw [hsz] at a1
  have lu : ru.length = k + 1 := by rw [hv w hw] at a2; exact (Nat.pow_right_injective le_rfl a2).symm
  have lv : rv.length = k + 1 := a3 ▸ lu
  obtain ⟨bw, hbw, hrows⟩ := pack_same params.pc.genN.generators params.pc.genN.h (by rw [p1, p2]; exact hs1) k w w' d.witness
  obtain ⟨i0, o0, e0, X0, X0'⟩ := input_same ho hne params p1 (by rw [p2]; exact hs1) p5 k w w' d.witness bw [] ru hw hw' dw hbw
    (by omega) (by simp [lu]) p4 p3 hrows _ bx _ bx' _ (hx w hw ru lu) (hx w' hw' ru lu) (by rw [p2]; exact a4) d.in0 di0 N2
  obtain ⟨i1, o1, e1, X1, X1'⟩ := input_same ho hne params p1 (by rw [p2]; exact hs1) p5 k w w' d.witness bw [] rv hw hw' dw hbw
    (by omega) (by simp [lv]) p4 p3 hrows _ by' _ by'' _ (hx w hw rv lv) (hx w' hw' rv lv) (by rw [p2]; exact a5) d.in1 di1
    (N2 + 3 * (k - k / 2) + 9)
  have A := run_yields ho params k l0 hb pre l (w ++ inputs) w hw d dw N _ _ _ ps _ o0 o1 bits hbits Z X0 X1
  have A' := run_yields ho params k l0 hb pre l (w' ++ inputs) w' hw' ⟨bw, L', i0, i1⟩ hbw N _ _ _ ps _ o0 o1 bits hbits Z' X0' X1'
  simp only [hrows] at A'
  exact ⟨⟨bw, L', i0, i1⟩, _, _, ⟨hbw, a1, e0, e1⟩, A, A'⟩

theorem run_inj (h2 : (2 : F) ≠ 0) {ch : Oracle F G} (ho : Oblivious ch) (hne : ∀ t, ch (t ++ [.chal "x"]) ≠ 0)
    (params : Params G) (p1 : params.pc.genN.h = params.pc.gen1.h) (p2 : params.pc.gen1 = params.gen1)
    (hs1 : Spans F params.gen1.h) (hs3 : Spans F params.gen3.h) (k : Nat) (p3 : 2 ^ (k - k / 2) ≤ params.pc.n)
    (p4 : 2 ^ (k - k / 2) ≤ params.pc.genN.generators.length) (p5 : params.pc.gen1.generators ≠ []) (l0 : Layer)
    (hb : l0.bitSize = k + 1) (pre : List (List (Nat × Nat × Nat))) (l : List (Nat × Nat × Nat))
    (hl : LegalLayers (2 ^ (k + 1)) (pre ++ [l])) (hwide : WideLayers (pre ++ [l])) (inputs w : List F)
    (hi : inputs.length = 2 ^ k) (hw : w.length = 2 ^ k)
    (hx : ∀ w : List F, w.length = 2 ^ k → ∀ q : List F, q.length = k + 1 → mle (w ++ inputs) q =
      (1 - q.headD 0) * mle w ([] ++ q.tail) + q.headD 0 * mle inputs ([] ++ q.tail))
    (d d' : Draw F) (hd : d.Ok k (sizes ⟨(pre ++ [l]).length + 1, l0 :: layersOf (pre ++ [l])⟩))
    (hd' : d'.Ok k (sizes ⟨(pre ++ [l]).length + 1, l0 :: layersOf (pre ++ [l])⟩)) (N n1 n2 : Nat) (proof : ZkGkrProof F G)
    (H : Yields (zkProveRun ch params ⟨(pre ++ [l]).length + 1, l0 :: layersOf (pre ++ [l])⟩
        ((w ++ inputs) :: circuitValues (w ++ inputs) (pre ++ [l])) w d.rand) N proof n1)
    (H' : Yields (zkProveRun ch params ⟨(pre ++ [l]).length + 1, l0 :: layersOf (pre ++ [l])⟩
        ((w ++ inputs) :: circuitValues (w ++ inputs) (pre ++ [l])) w d'.rand) N proof n2) : d = d' := by
  have hv : (w ++ inputs).length = 2 ^ (k + 1) := by rw [List.length_append, hw, hi, pow_succ]; omega
  have hsz : (upward (w ++ inputs) (k + 1) (pre ++ [l])).reverse.map (fun x => x.2.2) =
      sizes ⟨(pre ++ [l]).length + 1, l0 :: layersOf (pre ++ [l])⟩ := by
    rw [sizes, ← upward_parts _ (w ++ inputs) l0, List.map_map, hb]; rfl
  obtain ⟨bits, hbits⟩ : ∃ bits, bits = Nat.clog 2 (padTo l.length) := ⟨_, rfl⟩
  obtain ⟨t1, t2⟩ := topValues_length pre l (w ++ inputs) l0
  have hlen : (topValues (w ++ inputs) (pre ++ [l])).length ≤ 2 ^ bits := by rw [t1, hbits]; exact le_padTo _
  have hwd := upward_wide (pre ++ [l]) (w ++ inputs) (k + 1) hv (by omega) hwide
  have hnil : (upward (w ++ inputs) (k + 1) (pre ++ [l])).reverse ≠ [] := by
    rw [Ne, List.reverse_eq_nil_iff, ← List.length_eq_zero_iff, upward_length]; simp
  have hchain := upward_chain (F := F) _ _ _ hv hl hwide.full
  have parts : ∀ d : Draw F, d.Ok k (sizes ⟨(pre ++ [l]).length + 1, l0 :: layersOf (pre ++ [l])⟩) →
      ∃ (ps : List (ZkLayer F G)) (fin : Final F) (o0 o1 : DotProof F G × G × Spartan.EqProof F G) (N2 N3 N4 : Nat),
        Yields (zkLayersProve ch params (fns d.layers) (upward (w ++ inputs) (k + 1) (pre ++ [l])).reverse 0 (chals ch (N + 1) bits)
          (List.replicate bits 0) (mle (topValues (w ++ inputs) (pre ++ [l])) (chals ch (N + 1) bits)) 0 1 0 0) (N + 1 + bits)
          (ps, fin) N2 ∧
        fin.gu.length = k + 1 ∧ fin.gv.length = k + 1 ∧
        Yields (inputProve ch params w d.witness [] fin.gu fin.x fin.blindX d.in0) N2 o0 N3 ∧
        Yields (inputProve ch params w d.witness [] fin.gv fin.y fin.blindY d.in1) N3 o1 N4 ∧
        Yields (zkProveRun ch params ⟨(pre ++ [l]).length + 1, l0 :: layersOf (pre ++ [l])⟩
          ((w ++ inputs) :: circuitValues (w ++ inputs) (pre ++ [l])) w d.rand) N
          ⟨rowComms params.pc.genN.generators params.pc.genN.h k w d.witness, ps, o0.1, o0.2.1, o0.2.2, o1.1, o1.2.1, o1.2.2⟩ N4 := by
    rintro d ⟨dw, dl, di0, di1⟩
    rw [← hsz] at dl
    obtain ⟨-, ps, ru, rv, bx, by', -, -, N2, -, a2, a3, -, -, Z, -⟩ := layers_same h2 ho params hs1 hs3
      _ hnil (fun x hx => (hwd x (List.mem_reverse.1 hx)).2) _ rfl _ _ (w ++ inputs) (w ++ inputs) (chals ch (N + 1) bits)
      (List.replicate bits 0) 1 0
      (mle (topValues (w ++ inputs) (pre ++ [l])) (chals ch (N + 1) bits)) 0 0
      (mle (topValues (w ++ inputs) (pre ++ [l])) (chals ch (N + 1) bits)) 0 0 (by simp [chals_length])
      (by rw [chals_length]; exact hlen) hchain hchain (by simp) (by simp) rfl d.layers dl (N + 1 + bits)
    have lu : ru.length = k + 1 := by rw [hv] at a2; exact (Nat.pow_right_injective le_rfl a2).symm
    have lv : rv.length = k + 1 := a3 ▸ lu
    obtain ⟨-, o0, -, X0, -⟩ := input_same ho hne params p1 (by rw [p2]; exact hs1) p5 k w w d.witness d.witness [] ru hw hw dw dw
      (by omega) (by simp [lu]) p4 p3 rfl _ bx _ bx _ (hx w hw ru lu) (hx w hw ru lu) rfl d.in0 di0 N2
    obtain ⟨-, o1, -, X1, -⟩ := input_same ho hne params p1 (by rw [p2]; exact hs1) p5 k w w d.witness d.witness [] rv hw hw dw dw
      (by omega) (by simp [lv]) p4 p3 rfl _ by' _ by' _ (hx w hw rv lv) (hx w hw rv lv) rfl d.in1 di1
      (N2 + 3 * (k - k / 2) + 9)
    exact ⟨ps, _, o0, o1, _, _, _, Z, lu, lv, X0, X1,
      run_yields ho params k l0 hb pre l (w ++ inputs) w hw d dw N _ _ _ ps _ o0 o1 bits hbits Z X0 X1⟩
  obtain ⟨ps, fin, o0, o1, N2, N3, N4, Z, lu, lv, X0, X1, A⟩ := parts d hd
  obtain ⟨ps', fin', o0', o1', N2', N3', N4', Z', lu', lv', X0', X1', A'⟩ := parts d' hd'
  have e := (A.unique H).1.trans (A'.unique H').1.symm
  simp only [ZkGkrProof.mk.injEq] at e
  obtain ⟨f1, rfl, f2, f3, f4, f5, f6, f7⟩ := e
  obtain rfl : o0 = o0' := Prod.ext f2 (Prod.ext f3 f4)
  obtain rfl : o1 = o1' := Prod.ext f5 (Prod.ext f6 f7)
  have g1 := pack_inj _ _ (by rw [p1, p2]; exact hs1) k w _ _ hd.1 hd'.1 f1
  have g2 := layers_inj h2 ho params hs1 hs3 _ hnil (fun x hx => (hwd x (List.mem_reverse.1 hx)).2) _ (w ++ inputs)
    (chals ch (N + 1) bits) (List.replicate bits 0) 1 0 _ 0 0 (by simp [chals_length]) (by rw [chals_length]; exact hlen) hchain
    (by simp) d.layers d'.layers (by rw [hsz]; exact hd.2.1) (by rw [hsz]; exact hd'.2.1) _ _ _ ps _ _ Z Z'
  rw [← g2] at Z'
  obtain ⟨g3, rfl⟩ := Z.unique Z'
  obtain rfl := (Prod.mk.inj g3).2
  rw [← g1] at X0' X1'
  have g4 := input_inj ho hne params p1 (by rw [p2]; exact hs1) p5 k w d.witness [] fin.gu hw hd.1 (by omega) (by simp [lu]) p4 p3
    _ _ d.in0 d'.in0 hd.2.2.1 hd'.2.2.1 _ _ _ _ X0 X0'
  rw [← g4] at X0'
  obtain ⟨-, rfl⟩ := X0.unique X0'
  have g5 := input_inj ho hne params p1 (by rw [p2]; exact hs1) p5 k w d.witness [] fin.gv hw hd.1 (by omega) (by simp [lv]) p4 p3
    _ _ d.in1 d'.in1 hd.2.2.2 hd'.2.2.2 _ _ _ _ X1 X1'
  cases d; cases d'
  simp only at g1 g2 g4 g5
  rw [g1, g2, g4, g5]

/-- The random choices of the prover for a circuit with `2 ^ k` witness values. -/
abbrev Draws (F : Type) [Field F] (k : Nat) (c : Circuit) : Type := {d : Draw F // d.Ok k (sizes c)}

/-- Two witnesses with the same public inputs and outputs, for challenges chosen beforehand and blinding generators that
generate the group: the random choices with one witness and those with the other correspond one to one, such that
corresponding choices give the same proof. So the proofs for both are distributed in the same way. (The shapes are
those for which the prover does not panic, see `C87_shape`.) -/
theorem C100 (h2 : (2 : F) ≠ 0) (ch : Oracle F G) (ho : Oblivious ch) (hch : ∀ t, ch (t ++ [.chal "x"]) ≠ 0) (num : Nat)
    (r : ParamRand G) (hs : Spans F r.h) (hs3 : Spans F r.h3)
    (ni na : Nat) (raw : List (List (Nat × Nat × Nat))) (c : Circuit) (hc : Circuit.new ni na raw = .ok c) (hne : raw ≠ [])
    (hwide : WideLayers raw) (k : Nat) (hk : k = Nat.clog 2 (max na ni)) (inputs w w' : List F)
    (hi : inputs.length = 2 ^ k) (hw : w.length = 2 ^ k) (hw' : w'.length = 2 ^ k) (hni : inputs.length ≤ ni)
    (hna : w.length ≤ na) (hnum : k ≤ num) (hout : honest raw inputs w' = honest raw inputs w) (circuitHash paramsHash : F) :
    ∃ f : Draws F k c ≃ Draws F k c, ∀ d : Draws F k c, ∃ proof,
      zkProver ch (paramsNew num r) c inputs w circuitHash paramsHash d.1.rand = .ok (proof, honest raw inputs w) ∧
      zkProver ch (paramsNew num r) c inputs w' circuitHash paramsHash (f d).1.rand = .ok (proof, honest raw inputs w) := by
  have hna' : w'.length ≤ na := by rw [hw', ← hw]; exact hna
  have hc0 := hc
  have hl := (C55_accepted ni na raw).1 ⟨c, hc⟩
  rw [new_eq ni na raw hl] at hc
  obtain rfl := (Except.ok.inj hc).symm
  rw [show 2 * 2 ^ Nat.clog 2 (max na ni) = 2 ^ (k + 1) by rw [← hk, pow_succ]; omega] at hl
  have hx : ∀ w : List F, w.length = 2 ^ k → ∀ q : List F, q.length = k + 1 → mle (w ++ inputs) q =
      (1 - q.headD 0) * mle w ([] ++ q.tail) + q.headD 0 * mle inputs ([] ++ q.tail) := by
    intro w0 hw0 q hq
    obtain ⟨-, c2⟩ := C54_partial ni na inputs w0 hni (by rw [hw0, ← hw]; exact hna) (hi.trans hw0.symm)
    have hlay : layout (2 ^ Nat.clog 2 (max na ni)) inputs w0 = w0 ++ inputs := by rw [← hk, layout, hi, hw0]; simp
    rw [hlay] at c2
    obtain ⟨a, q, rfl⟩ := List.exists_cons_of_length_eq_add_one hq
    exact c2 q (by rw [← hk]; simpa using hq) a
  have ev : ∀ w : List F, w.length = 2 ^ k → (⟨raw.length + 1, inputNew ni na :: layersOf raw⟩ : Circuit).evaluate inputs w =
      .ok ((w ++ inputs) :: circuitValues (w ++ inputs) raw) := by
    intro w0 hw0
    have hna0 : w0.length ≤ na := by rw [hw0, ← hw]; exact hna
    obtain ⟨v0, e0, -, e1⟩ := C55_evaluates ni na raw _ hc0 inputs w0 hni hna0
    obtain ⟨c1, -⟩ := C54_partial ni na inputs w0 hni hna0 (hi.trans hw0.symm)
    have hlay : layout (2 ^ Nat.clog 2 (max na ni)) inputs w0 = w0 ++ inputs := by rw [← hk, layout, hi, hw0]; simp
    rw [hlay] at c1
    obtain rfl : v0 = w0 ++ inputs := by rw [c1] at e0; exact (Except.ok.inj e0).symm
    exact e1
  have hbit : (inputNew ni na).bitSize = k + 1 := by rw [inputNew_bitSize, hk]
  obtain ⟨params, hP⟩ : ∃ params : Params G, params = paramsNew num r := ⟨_, rfl⟩
  have hsize : 2 ^ (k - k / 2) ≤ 2 ^ (num - num / 2) := Nat.pow_le_pow_right (by decide) (by omega)
  have p1 : params.pc.genN.h = params.pc.gen1.h := by rw [hP]; rfl
  have p2 : params.pc.gen1 = params.gen1 := by rw [hP]; rfl
  have p3 : 2 ^ (k - k / 2) ≤ params.pc.n := by rw [hP]; exact hsize
  have p4 : 2 ^ (k - k / 2) ≤ params.pc.genN.generators.length := by
    rw [hP]; simpa [paramsNew, multiNew] using hsize
  have p5 : params.pc.gen1.generators ≠ [] := by rw [hP]; simp [paramsNew]
  have s1 : Spans F params.gen1.h := by rw [hP]; exact hs
  have s3 : Spans F params.gen3.h := by rw [hP]; exact hs3
  rw [← hP]
  obtain ⟨pre, l, rfl⟩ := splitLast raw hne
  have run : ∀ w0 : List F, w0.length = 2 ^ k → ∀ (d : Draw F) (proof : ZkGkrProof F G) (N : Nat),
      Yields (zkProveRun ch params ⟨(pre ++ [l]).length + 1, inputNew ni na :: layersOf (pre ++ [l])⟩
        ((w0 ++ inputs) :: circuitValues (w0 ++ inputs) (pre ++ [l])) w0 d.rand) 4 proof N →
      zkProver ch params ⟨(pre ++ [l]).length + 1, inputNew ni na :: layersOf (pre ++ [l])⟩ inputs w0 circuitHash paramsHash d.rand =
        .ok (proof, honest (pre ++ [l]) inputs w0) := by
    intro w0 hw0 d proof N h
    obtain ⟨tr, h, -⟩ := h (zkStart circuitHash paramsHash inputs (honest (pre ++ [l]) inputs w0)) rfl
    have ht : ((w0 ++ inputs) :: circuitValues (w0 ++ inputs) (pre ++ [l])).getLastD [] = honest (pre ++ [l]) inputs w0 := rfl
    unfold zkProver
    simp only [ev w0 hw0, ht, h]
  obtain ⟨f, hf⟩ := choices_equiv
    (fun (d : Draws F k ⟨(pre ++ [l]).length + 1, inputNew ni na :: layersOf (pre ++ [l])⟩) (proof : ZkGkrProof F G) =>
      ∃ N, Yields (zkProveRun ch params ⟨(pre ++ [l]).length + 1, inputNew ni na :: layersOf (pre ++ [l])⟩
        ((w ++ inputs) :: circuitValues (w ++ inputs) (pre ++ [l])) w d.1.rand) 4 proof N)
    (fun d proof => ∃ N, Yields (zkProveRun ch params ⟨(pre ++ [l]).length + 1, inputNew ni na :: layersOf (pre ++ [l])⟩
        ((w' ++ inputs) :: circuitValues (w' ++ inputs) (pre ++ [l])) w' d.1.rand) 4 proof N)
    (fun d => by
      obtain ⟨d', proof, N', a, b, b'⟩ := run_same h2 ho hch params p1 p2 s1 s3 k p3 p4 p5 _ hbit pre l hl hwide inputs w w' hi hw hw'
        hx hout d.1 d.2 4
      exact ⟨⟨d', a⟩, proof, ⟨N', b⟩, ⟨N', b'⟩⟩)
    (fun d => by
      obtain ⟨d', proof, N', a, b, b'⟩ := run_same h2 ho hch params p1 p2 s1 s3 k p3 p4 p5 _ hbit pre l hl hwide inputs w' w hi hw' hw
        hx hout.symm d.1 d.2 4
      exact ⟨⟨d', a⟩, proof, ⟨N', b'⟩, ⟨N', b⟩⟩)
    (fun d b b' ⟨_, h⟩ ⟨_, h'⟩ => (h.unique h').1) (fun d b b' ⟨_, h⟩ ⟨_, h'⟩ => (h.unique h').1)
    (fun d e b ⟨_, h⟩ ⟨_, h'⟩ => Subtype.ext (run_inj h2 ho hch params p1 p2 s1 s3 k p3 p4 p5 _ hbit pre l hl hwide inputs w hi hw hx
      d.1 e.1 d.2 e.2 4 _ _ b h h'))
    (fun d e b ⟨_, h⟩ ⟨_, h'⟩ => Subtype.ext (run_inj h2 ho hch params p1 p2 s1 s3 k p3 p4 p5 _ hbit pre l hl hwide inputs w' hi hw' hx
      d.1 e.1 d.2 e.2 4 _ _ b h h'))
  refine ⟨f, fun d => ?_⟩
  obtain ⟨proof, ⟨N, h⟩, ⟨N', h'⟩⟩ := hf d
  refine ⟨proof, run w hw d.1 proof N h, ?_⟩
  rw [run w' hw' (f d).1 proof N' h', hout]

theorem exChal_oblivious : Oblivious exChal := fun t t' h => by unfold exChal; rw [h]

theorem exSpans3 : Spans F17 (3 : F17) := fun p => ⟨p * 6, by
  simp only [smul_eq_mul]; exact ⟨by revert p; decide, by revert p; decide⟩⟩

theorem exSpans5 : Spans F17 (5 : F17) := fun p => ⟨p * 7, by
  simp only [smul_eq_mul]; exact ⟨by revert p; decide, by revert p; decide⟩⟩

/-- Random choices for layers with two and four values. -/
def exDraw : Draw F17 :=
  ⟨[3], [⟨[⟨1, 2, [3, 4, 5], 6, 7⟩], [⟨8, 9, [10, 11, 12], 13, 14⟩], 1, 2, 3, 4, 5, 6, 7, 8, 9⟩,
    ⟨[⟨1, 2, [3, 4, 5], 6, 7⟩, ⟨2, 3, [1, 0, 5], 6, 2⟩], [⟨8, 9, [10, 11, 12], 13, 14⟩, ⟨5, 4, [3, 2, 1], 0, 16⟩],
      11, 12, 13, 14, 15, 16, 7, 8, 9⟩], ⟨1, 2, 3, 4, [(5, 6)], 9⟩, ⟨3, 2, 3, 4, [(7, 8)], 9⟩⟩

/-- The product of two hidden values plus the sum of two public ones; the hidden values are 5 and 6, or 10 and 3. The
choices exist. -/
example : ∃ c, Circuit.new 2 2 [[(1, 0, 1), (0, 2, 3)], [(0, 0, 1)]] = .ok c ∧ exDraw.Ok 1 (sizes c) ∧
    ∃ f : Draws F17 1 c ≃ Draws F17 1 c, ∀ d : Draws F17 1 c, ∃ proof,
      zkProver exChal (paramsNew 2 exPoints) c [3, 4] [5, 6] 1 2 d.1.rand = .ok (proof, [30 + 7]) ∧
      zkProver exChal (paramsNew 2 exPoints) c [3, 4] [10, 3] 1 2 (f d).1.rand = .ok (proof, [30 + 7]) := by
  have hk : Nat.clog 2 (max 2 2) = 1 := by decide
  obtain ⟨c, hc⟩ := (C55_accepted 2 2 [[(1, 0, 1), (0, 2, 3)], [(0, 0, 1)]]).2 (by rw [hk]; simp [LegalLayers, Legal])
  refine ⟨c, hc, ?_, ?_⟩
  · have hl := (C55_accepted 2 2 [[(1, 0, 1), (0, 2, 3)], [(0, 0, 1)]]).1 ⟨c, hc⟩
    rw [new_eq _ _ _ hl] at hc
    obtain rfl := (Except.ok.inj hc).symm
    have hsz : sizes ⟨[[(1, 0, 1), (0, 2, 3)], [(0, 0, 1)]].length + 1, inputNew 2 2 :: layersOf [[(1, 0, 1), (0, 2, 3)], [(0, 0, 1)]]⟩ =
        [1, 2] := by decide
    rw [hsz]
    refine ⟨rfl, .cons ⟨rfl, rfl, by simp, by simp⟩ (.cons ⟨rfl, rfl, by simp, by simp⟩ .nil), rfl, rfl⟩
  · have ho : ∀ w : List F17, w = [5, 6] ∨ w = [10, 3] → honest [[(1, 0, 1), (0, 2, 3)], [(0, 0, 1)]] [3, 4] w = [30 + 7] := by
      rintro w (rfl | rfl) <;> decide +kernel
    have := C100 (F := F17) (G := F17) (by decide) exChal exChal_oblivious (fun t => exChal_ne _) 2 exPoints exSpans3 exSpans5 2 2 _ c
      hc (by simp) (fun l hl => ⟨1, le_rfl, by simp at hl; rw [hl]; rfl⟩) 1 hk.symm [3, 4] [5, 6] [10, 3] rfl rfl rfl (by simp) (by simp)
      (by simp) (by rw [ho _ (.inl rfl), ho _ (.inr rfl)]) 1 2
    rw [ho _ (.inl rfl)] at this
    exact this

end Zkp.Lz
