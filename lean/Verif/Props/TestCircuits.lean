/- C123: the circuits of the Hyrax and Libra tests, for all values. -/
import Verif.Model.TestCircuits
import Verif.Props.HyraxComplete
import Verif.Props.LibraZk

set_option linter.unusedSectionVars false

namespace Zkp.TestCircuits
open Zkp.Gkr Zkp.Hx Zkp.Lz Zkp.Cp Zkp.Spartan Zkp.Sc

variable {F : Type} [Field F] {G : Type} [AddCommGroup G] [Module F G] [DecidableEq F] [DecidableEq G]

theorem clog8 : Nat.clog 2 (max 8 8) = 3 := by decide
theorem clog8' : Nat.clog 2 8 = 3 := by decide
theorem clog2 : Nat.clog 2 (max 2 2) = 1 := by decide
theorem clog2' : Nat.clog 2 2 = 1 := by decide

theorem large_new : ∃ c, Circuit.new 8 8 large = .ok c :=
  (C55_accepted 8 8 large).2 (by rw [clog8]; simp [large, LegalLayers, Legal])

theorem small_new : ∃ c, Circuit.new 2 2 small = .ok c :=
  (C55_accepted 2 2 small).2 (by rw [clog2]; simp [small, LegalLayers, Legal])

/-- What the comment in the tests says that the large circuit computes. -/
theorem C123_large (w0 w1 w2 w3 w4 w5 w6 w7 x0 x1 x2 x3 x4 x5 x6 x7 : F) :
    topValues ([w0, w1, w2, w3, w4, w5, w6, w7] ++ [x0, x1, x2, x3, x4, x5, x6, x7]) large =
      let b0 := w0 * w1 * (w2 + w3)
      let b1 := w4 + w5 + w6 * w7
      let b2 := x7 * x0 + x1 * x2
      let b3 := (x3 + x4) * (x5 + x6)
      [b0 + b1, b1 + b2, b2 * b3, b1 * b3] := by
  simp [large, topValues, circuitValues, gateValue]

/-- The small one computes an inner product of the witness and the public inputs. -/
theorem C123_small (w0 w1 x0 x1 : F) : topValues ([w0, w1] ++ [x0, x1]) small = [w0 * x0 + w1 * x1] := by
  simp [small, topValues, circuitValues, gateValue]

/-- Hyrax with the large circuit: for every power of two of instances, at least two and at most 32, and all values, the
proof is accepted. The test has four instances. -/
theorem C123_hyrax_large (h2 : (2 : F) ≠ 0) (h3 : (3 : F) ≠ 0) (ch : Oracle F G) (hch : ∀ t, ch (t ++ [.chal "x"]) ≠ 0)
    (r : ParamRand G) (c : Circuit) (hc : Circuit.new 8 8 large = .ok c) (ps : List (List F × List F)) (logN : Nat)
    (hN : 1 ≤ logN) (hN' : logN ≤ 5) (hn : ps.length = 2 ^ logN) (hp : ∀ p ∈ ps, p.1.length = 8 ∧ p.2.length = 8)
    (circuitHash paramHash : F) (rand : HyraxRand F) (hw : rand.witness.length = 2 ^ ((logN + 3) / 2))
    (hb0 : logN + 3 - (logN + 3) / 2 ≤ rand.in0.bullet.length) (hb1 : logN + 3 - (logN + 3) / 2 ≤ rand.in1.bullet.length)
    (tr : Transcript F G) :
    ∃ proof tr',
      prove ch (paramsNew 8 r) (ps.map Prod.snd) (ps.map Prod.fst) c circuitHash paramHash (2 ^ logN) rand tr =
        .ok ((proof, ps.map fun p => topValues (p.2 ++ p.1) large), tr') ∧
      verify ch (paramsNew 8 r) proof (ps.map fun p => topValues (p.2 ++ p.1) large) (ps.map Prod.fst) c circuitHash paramHash tr =
        .ok ((), tr') := by
  have h := C86_partial h2 h3 ch hch 8 r 8 8 large c hc (by simp [large]) 3 clog8.symm
    ⟨⟨3, rfl⟩, Or.inr (by simp), ⟨2, rfl⟩, Or.inr (by simp), ⟨2, rfl⟩, Or.inr (by simp), trivial⟩ ps logN hN hn
    (fun p h => by obtain ⟨h1, h2⟩ := hp p h; simp [h1, h2, clog8']) (by omega) circuitHash paramHash rand hw hb0 hb1 tr
  have e : ps.map (honestOutputs 3 large) = ps.map fun p => topValues (p.2 ++ p.1) large := by
    refine List.map_congr_left fun p h => ?_
    obtain ⟨h1, h2⟩ := hp p h
    simp [honestOutputs, layout, h1, h2]
  rwa [e] at h

/-- Hyrax with the small circuit; the test has two instances. -/
theorem C123_hyrax_small (h2 : (2 : F) ≠ 0) (h3 : (3 : F) ≠ 0) (ch : Oracle F G) (hch : ∀ t, ch (t ++ [.chal "x"]) ≠ 0)
    (r : ParamRand G) (c : Circuit) (hc : Circuit.new 2 2 small = .ok c) (x y x' y' w z w' z' : F)
    (circuitHash paramHash : F) (rand : HyraxRand F) (hw : rand.witness.length = 2)
    (hb0 : 1 ≤ rand.in0.bullet.length) (hb1 : 1 ≤ rand.in1.bullet.length) (tr : Transcript F G) :
    ∃ proof tr',
      prove ch (paramsNew 2 r) [[w, z], [w', z']] [[x, y], [x', y']] c circuitHash paramHash 2 rand tr =
        .ok ((proof, [[w * x + z * y], [w' * x' + z' * y']]), tr') ∧
      verify ch (paramsNew 2 r) proof [[w * x + z * y], [w' * x' + z' * y']] [[x, y], [x', y']] c circuitHash paramHash tr =
        .ok ((), tr') := by
  have h := C86_partial h2 h3 ch hch 2 r 2 2 small c hc (by simp [small]) 1 clog2.symm
    ⟨⟨1, rfl⟩, Or.inr (by simp), ⟨0, rfl⟩, Or.inr (by simp), trivial⟩ [([x, y], [w, z]), ([x', y'], [w', z'])] 1 le_rfl rfl
    (by simp [clog2']) (by omega) circuitHash paramHash rand hw hb0 hb1 tr
  have e : [([x, y], [w, z]), ([x', y'], [w', z'])].map (honestOutputs 1 small) = [[w * x + z * y], [w' * x' + z' * y']] := by
    simp [honestOutputs, layout, small, topValues, circuitValues, gateValue]
  rwa [e] at h

/-- Libra with zero knowledge and the large circuit. -/
theorem C123_libra_large (h2 : (2 : F) ≠ 0) (ch : Oracle F G) (hch : ∀ t, ch (t ++ [.chal "x"]) ≠ 0) (r : ParamRand G)
    (c : Circuit) (hc : Circuit.new 8 8 large = .ok c) (inputs witnesses : List F) (hi : inputs.length = 8)
    (hw : witnesses.length = 8) (circuitHash paramsHash : F) (rand : GkrRand F) (hb : rand.witness.length = 2)
    (hr : ∀ i, (rand.layers i).Ok) (hb0 : 2 ≤ rand.in0.bullet.length) (hb1 : 2 ≤ rand.in1.bullet.length) :
    ∃ proof, zkProver ch (paramsNew 8 r) c inputs witnesses circuitHash paramsHash rand =
        .ok (proof, topValues (witnesses ++ inputs) large) ∧
      Lz.zkVerify ch (paramsNew 8 r) c (topValues (witnesses ++ inputs) large) inputs circuitHash paramsHash proof = .ok true :=
  C87_partial h2 ch hch 8 r 8 8 large c hc (by simp [large])
    (fun l hl => by
      simp [large] at hl
      rcases hl with rfl | rfl
      · exact ⟨3, by decide, rfl⟩
      · exact ⟨2, by decide, rfl⟩)
    3 clog8.symm inputs witnesses hi hw hi.le hw.le (by decide) circuitHash paramsHash rand hb hr hb0 hb1

/-- And the small circuit. -/
theorem C123_libra_small (h2 : (2 : F) ≠ 0) (ch : Oracle F G) (hch : ∀ t, ch (t ++ [.chal "x"]) ≠ 0) (r : ParamRand G)
    (c : Circuit) (hc : Circuit.new 2 2 small = .ok c) (x y w z : F) (circuitHash paramsHash : F) (rand : GkrRand F)
    (hb : rand.witness.length = 1) (hr : ∀ i, (rand.layers i).Ok) (hb0 : 1 ≤ rand.in0.bullet.length)
    (hb1 : 1 ≤ rand.in1.bullet.length) :
    ∃ proof, zkProver ch (paramsNew 8 r) c [x, y] [w, z] circuitHash paramsHash rand = .ok (proof, [w * x + z * y]) ∧
      Lz.zkVerify ch (paramsNew 8 r) c [w * x + z * y] [x, y] circuitHash paramsHash proof = .ok true := by
  have h := C87_partial h2 ch hch 8 r 2 2 small c hc (by simp [small])
    (fun l hl => ⟨1, le_rfl, by simp [small] at hl; rw [hl]; rfl⟩)
    1 clog2.symm [x, y] [w, z] rfl rfl le_rfl le_rfl (by decide) circuitHash paramsHash rand hb hr hb0 hb1
  have e : honest small [x, y] [w, z] = [w * x + z * y] := C123_small w z x y
  rwa [e] at h

/-- Libra without zero knowledge: the tests hand the whole input layer to the verifier. -/
theorem plain (h2 : (2 : F) ≠ 0) (ch : Oracle F G) (n : Nat) (raw : List (List (Nat × Nat × Nat))) (c : Circuit)
    (hc : Circuit.new n n raw = .ok c) (hne : raw ≠ []) (hf : FullLayers raw) (hk : 2 ^ Nat.clog 2 (max n n) = n)
    (inputs witnesses : List F) (hi : inputs.length = n) (hw : witnesses.length = n) (hash : F) :
    ∃ proofs, linearProver ch c inputs witnesses hash = .ok (proofs, topValues (witnesses ++ inputs) raw) ∧
      linearVerify ch c (topValues (witnesses ++ inputs) raw) (witnesses ++ inputs) hash proofs = .ok true := by
  obtain ⟨v0, proofs, h1, h3, h4⟩ := C77_partial h2 ch n n raw c hc hne hf inputs witnesses hi.le hw.le hash
  obtain ⟨v, e, -, ev⟩ := C55_evaluates n n raw c hc inputs witnesses hi.le hw.le
  rw [C54_actual n n inputs witnesses hi.le hw.le, hk, hi, hw] at e
  simp only [Nat.sub_self, List.replicate_zero, List.append_nil] at e
  obtain rfl := Except.ok.inj e
  rw [ev] at h1
  obtain ⟨rfl, -⟩ := List.cons.inj (Except.ok.inj h1)
  exact ⟨proofs, h3, h4⟩

theorem C123_plain_large (h2 : (2 : F) ≠ 0) (ch : Oracle F G) (c : Circuit) (hc : Circuit.new 8 8 large = .ok c)
    (inputs witnesses : List F) (hi : inputs.length = 8) (hw : witnesses.length = 8) (hash : F) :
    ∃ proofs, linearProver ch c inputs witnesses hash = .ok (proofs, topValues (witnesses ++ inputs) large) ∧
      linearVerify ch c (topValues (witnesses ++ inputs) large) (witnesses ++ inputs) hash proofs = .ok true :=
  plain h2 ch 8 large c hc (by simp [large]) ⟨⟨3, rfl⟩, ⟨2, rfl⟩, trivial⟩ (by rw [clog8]; rfl) inputs witnesses hi hw hash

theorem C123_plain_small (h2 : (2 : F) ≠ 0) (ch : Oracle F G) (c : Circuit) (hc : Circuit.new 2 2 small = .ok c)
    (x y w z : F) (hash : F) :
    ∃ proofs, linearProver ch c [x, y] [w, z] hash = .ok (proofs, [w * x + z * y]) ∧
      linearVerify ch c [w * x + z * y] ([w, z] ++ [x, y]) hash proofs = .ok true := by
  have h := plain h2 ch 2 small c hc (by simp [small]) ⟨⟨1, rfl⟩, trivial⟩ (by rw [clog2]; rfl) [x, y] [w, z] rfl rfl hash
  rwa [C123_small w z x y] at h

/-- The values of hyrax/tests/test_2.rs, in `F17`: 3·2 + 4·3 and 2·3 + 3·4. -/
example (c : Circuit) (hc : Circuit.new 2 2 small = .ok c) : ∃ proof tr',
    prove exChal (paramsNew 2 exPoints) [[3, 4], [2, 3]] [[2, 3], [3, 4]] c 1 2 2 (Hx.exRand 2) [] = .ok ((proof, [[18], [18]]), tr') ∧
    verify exChal (paramsNew 2 exPoints) proof [[18], [18]] [[2, 3], [3, 4]] c 1 2 [] = .ok ((), tr') :=
  C123_hyrax_small (F := F17) (G := F17) (by decide) (by decide) exChal (fun t => exChal_ne _) exPoints c hc 2 3 3 4 3 4 2 3 1 2
    (Hx.exRand 2) (by simp [Hx.exRand]) (by simp [Hx.exRand]) (by simp [Hx.exRand]) []

/-- The values of libra/tests/test.rs in `F17`, without zero knowledge. -/
example : ∃ c, Circuit.new 8 8 large = .ok c ∧ ∃ proofs, linearProver (G := F17) (fun _ => 3) c [1, 2, 3, 4, 5, 6, 7, 8]
    [9, 10, 11, 12, 13, 14, 15, 16] (1 : F17) = .ok (proofs, topValues [9, 10, 11, 12, 13, 14, 15, 16, 1, 2, 3, 4, 5, 6, 7, 8] large) := by
  obtain ⟨c, hc⟩ := large_new
  obtain ⟨proofs, h, -⟩ := C123_plain_large (F := F17) (G := F17) (by decide) (fun _ => 3) c hc [1, 2, 3, 4, 5, 6, 7, 8]
    [9, 10, 11, 12, 13, 14, 15, 16] rfl rfl 1
  exact ⟨c, hc, proofs, h⟩

/-- The values of libra/tests/test_2.rs in `F17`, with zero knowledge. -/
example (c : Circuit) (hc : Circuit.new 2 2 small = .ok c) : ∃ proof,
    zkProver exChal (paramsNew 8 exPoints) c [2, 3] [3, 4] 1 2 (exGkrRand 1) = .ok (proof, [18]) ∧
    Lz.zkVerify exChal (paramsNew 8 exPoints) c [18] [2, 3] 1 2 proof = .ok true :=
  C123_libra_small (F := F17) (G := F17) (by decide) exChal (fun t => exChal_ne _) exPoints c hc 2 3 3 4 1 2
    (exGkrRand 1) rfl (exGkrRand_ok 1) (by simp [exGkrRand]) (by simp [exGkrRand])

end Zkp.TestCircuits
