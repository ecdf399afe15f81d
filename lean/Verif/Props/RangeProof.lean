/- C23: the comparison circuit. -/
import Verif.Proof.RangeProof
import Verif.Proof.BlsPrime

set_option linter.unusedSectionVars false

namespace Zkp

variable {p : Nat} [Fact p.Prime]

/-- Synthesis never panics or fails for widths that fit the field representation (`64 L` bits): not
in setup mode with any operands (present or missing), not in proving mode with operands present. -/
theorem C23_never_panics (L n : Nat) (hL : n + 1 ≤ 64 * L) (A B : Option (ZMod p))
    (cs : CS (ZMod p)) (h : cs.proving = true → A.isSome ∧ B.isSome) :
    ∃ r cs', RangeProof.synth L n A B cs = .ok (r, cs') := by
  obtain ⟨r, cs', h1, _⟩ := RangeProof.synth_runs cs.proving L n hL A B h cs rfl
  exact ⟨r, cs', h1⟩

/-- Wider requests do panic (index out of range while collecting bits). -/
theorem C23_too_wide_panics (L n : Nat) (hL : ¬ n + 1 ≤ 64 * L) (A B : ZMod p) (cs : CS (ZMod p)) :
    RangeProof.synth L n (some A) (some B) cs = .error .panic := by
  have hb : ∀ v : ZMod p, RangeProof.alphaBits L n v = none := by
    intro v; simp [RangeProof.alphaBits, hL]
  unfold RangeProof.synth
  simp only [hb]
  cases hp : cs.proving <;>
    simp [bind, StateT.bind, Except.bind, alloc, allocInput, hp, okOr, RangeProof.packedValue, panicS]

/-- For arbitrary field elements: the system (with the public input equal to `2^n`) has a satisfying
assignment with operands `A`, `B` exactly if `B - A` is one of `1, …, 2^n - 1`. -/
theorem C23_field (L n : Nat) (hL : n + 1 ≤ 64 * L) (hp : 2 ^ (n + 1) ≤ p) (A B : ZMod p) :
    ∃ r cs', RangeProof.synth L n (some A) (some B) (CS.new true) = .ok (r, cs') ∧
      ((∃ w : Index → ZMod p, w .one = 1 ∧ cs'.Sat w ∧ w r.1 = A ∧ w r.2.1 = B ∧ w r.2.2 = 2 ^ n) ↔
        ∃ m : Nat, 1 ≤ m ∧ m < 2 ^ n ∧ B = A + m) := by
  obtain ⟨r, cs', hrun⟩ := C23_never_panics L n hL (some A) (some B) (CS.new true) (by simp)
  refine ⟨r, cs', hrun, ?_, ?_⟩
  · rintro ⟨w, ho, hs, rfl, rfl, ht⟩
    exact (RangeProof.synth_snd L n _ _ _ _ _ hrun).2 w ho hs ht
  · rintro ⟨m, h1, h2, rfl⟩
    obtain ⟨r', cs'', hr', _, g, k1, k2, k3⟩ :=
      RangeProof.synth_cmp L n hL hp A m h1 h2 (CS.new true) CS.good_new
    rw [hrun, Except.ok.injEq, Prod.mk.injEq] at hr'
    obtain ⟨rfl, rfl⟩ := hr'
    exact ⟨cs'.witness, g.witness_one, g.sat, k1 _ cs'.witness_agrees,
      k2 _ cs'.witness_agrees, k3 _ cs'.witness_agrees⟩

/-- **The property**: for `n`-bit integers the circuit is satisfiable exactly when `A < B`. -/
theorem C23_compare (L n : Nat) (hL : n + 1 ≤ 64 * L) (hp : 2 ^ (n + 1) ≤ p) (a b : Nat)
    (ha : a < 2 ^ n) (hb : b < 2 ^ n) :
    ∃ r cs', RangeProof.synth L n (some (a : ZMod p)) (some (b : ZMod p)) (CS.new true) =
        .ok (r, cs') ∧
      ((∃ w : Index → ZMod p, w .one = 1 ∧ cs'.Sat w ∧ w r.1 = a ∧ w r.2.1 = b ∧ w r.2.2 = 2 ^ n) ↔
        a < b) := by
  obtain ⟨r, cs', hrun, h⟩ := C23_field L n hL hp (a : ZMod p) (b : ZMod p)
  refine ⟨r, cs', hrun, h.trans ⟨?_, fun hab => ⟨b - a, by omega, by omega, ?_⟩⟩⟩
  · rintro ⟨m, h1, h2, h3⟩
    rw [← Nat.cast_add, ZMod.natCast_eq_natCast_iff', Nat.mod_eq_of_lt, Nat.mod_eq_of_lt] at h3 <;>
      rw [pow_succ] at hp <;> omega
  · rw [← Nat.cast_add]; congr 1; omega

/-- Soundness for whatever state and mode the circuit was synthesized in (in particular the setup
mode used for verification keys). -/
theorem C23_sound (L n : Nat) (hp : 2 ^ (n + 1) ≤ p) (A B : Option (ZMod p))
    (cs cs' : CS (ZMod p)) (r : Index × Index × Index)
    (hrun : RangeProof.synth L n A B cs = .ok (r, cs')) (w : Index → ZMod p) (ho : w .one = 1)
    (hs : cs'.Sat w) (ht : w r.2.2 = 2 ^ n) (a b : Nat) (ha : a < 2 ^ n) (hb : b < 2 ^ n)
    (hA : w r.1 = a) (hB : w r.2.1 = b) : a < b := by
  obtain ⟨m, h1, h2, h3⟩ := (RangeProof.synth_snd L n _ _ _ _ _ hrun).2 w ho hs ht
  rw [hA, hB, ← Nat.cast_add, ZMod.natCast_eq_natCast_iff', Nat.mod_eq_of_lt, Nat.mod_eq_of_lt] at h3 <;>
    rw [pow_succ] at hp <;> omega

/-- The operands themselves are not range checked: for every width at least one, the circuit accepts
`A = p - 1` with `B = 0`, where `A < B` fails for the canonical representatives. -/
theorem C23_operands_not_bounded (L n : Nat) (hn : 1 ≤ n) (hL : n + 1 ≤ 64 * L)
    (hp : 2 ^ (n + 1) ≤ p) :
    ∃ r cs', RangeProof.synth L n (some (-1 : ZMod p)) (some 0) (CS.new true) = .ok (r, cs') ∧
      (∃ w : Index → ZMod p, w .one = 1 ∧ cs'.Sat w ∧ w r.1 = -1 ∧ w r.2.1 = 0 ∧ w r.2.2 = 2 ^ n) ∧
      ¬ (-1 : ZMod p).val < (0 : ZMod p).val := by
  obtain ⟨r, cs', hrun, h⟩ := C23_field L n hL hp (-1 : ZMod p) 0
  refine ⟨r, cs', hrun, h.mpr ⟨1, le_refl _, ?_, by simp⟩, by simp⟩
  exact Nat.one_lt_two_pow (by omega)

/-- Concrete case: 64-bit comparison over the BLS12-381 scalar field, 5 < 1000. -/
example : (64 + 1 ≤ 64 * 4) ∧ 2 ^ (64 + 1) ≤ blsR ∧ 5 < 2 ^ 64 ∧ 1000 < 2 ^ 64 := by
  unfold blsR; norm_num

example : ∃ r cs', RangeProof.synth 4 64 (some (5 : ZMod blsR)) (some 1000) (CS.new true) =
        .ok (r, cs') ∧
      ∃ w : Index → ZMod blsR, w .one = 1 ∧ cs'.Sat w ∧ w r.1 = 5 ∧ w r.2.1 = 1000 ∧
        w r.2.2 = 2 ^ 64 := by
  obtain ⟨r, cs', h1, h2⟩ := C23_compare (p := blsR) 4 64 (by norm_num) (by unfold blsR; norm_num)
    5 1000 (by norm_num) (by norm_num)
  exact ⟨r, cs', by simpa using h1, by simpa using h2.mpr (by norm_num)⟩

end Zkp
