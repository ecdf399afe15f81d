/- C14, C15: the SHA-256 circuit computes SHA-256 (FIPS 180-4, `Verif.Spec.Sha256`). -/
import Verif.Proof.Sha256
import Verif.Props.UInt32
import Verif.Proof.BlsPrime

set_option linter.unusedSectionVars false
set_option linter.unusedSimpArgs false

namespace Zkp

open Sha

/-- The eight words of a SHA-256 state, in order. -/
def stWords (s : Sha256.St) : List (BitVec 32) := [s.a, s.b, s.c, s.d, s.e, s.f, s.g, s.h]

/-- Soundness of the compression function, for every chaining value and every block: in every
satisfying assignment, if the input bits represent `block` and the chaining words denote `H`, the
result denotes the FIPS 180-4 compression of `H` and `block`. -/
theorem C14_compression_sound (p : Nat) [Fact p.Prime] (hp : 64 ≤ Nat.size p)
    (input : List Boolean) (cur out : List UInt32G) (cs cs' : CS (ZMod p))
    (hrun : compression (capacity p) input cur cs = .ok (out, cs')) (w : Index → ZMod p)
    (hone : w .one = 1) (hsat : cs'.Sat w) (block : List Bool) (H : Sha256.St)
    (hin : List.Forall₂ (fun b x => b.Rep w x) input block)
    (hcur : List.Forall₂ (fun u x => u.Denotes w x) cur (stWords H)) :
    cs.Sat w ∧ List.Forall₂ (fun u x => u.Denotes w x) out
      (stWords (Sha256.compress H ((chunks 32 block).map wordBE))) := by
  have hl : input.length = 512 := by
    by_contra h
    unfold compression at hrun
    rw [if_neg h] at hrun
    simp [panicS] at hrun
  have hi := compression_impl (capOK_zmod p) (by unfold capacity; omega) input block cur H hl
  obtain ⟨e, q⟩ := hi.snd cs out cs' hrun
  exact ⟨e.sat hsat, (q w hone hsat).2 ⟨hin, hcur⟩⟩

/-- Completeness: honest values always satisfy the circuit and give the FIPS 180-4 result. -/
theorem C14_compression_complete (p : Nat) [Fact p.Prime] (hp : 64 ≤ Nat.size p)
    (input : List Boolean) (cur : List UInt32G) (cs : CS (ZMod p)) (hgood : cs.Good)
    (block : List Bool) (hl : block.length = 512) (H : Sha256.St)
    (hin : List.Forall₂ (fun b x => b.Known cs x) input block)
    (hcur : List.Forall₂ (fun u x => u.Known cs x) cur (stWords H)) :
    ∃ out cs', compression (capacity p) input cur cs = .ok (out, cs') ∧ cs.Ext cs' ∧ cs'.Good ∧
      List.Forall₂ (fun u x => u.Known cs' x) out
        (stWords (Sha256.compress H ((chunks 32 block).map wordBE))) :=
  (compression_impl (capOK_zmod p) (by unfold capacity; omega) input block cur H
    (hin.length_eq.trans hl)).cmp cs ⟨hin, hcur⟩ hgood

/-- The single-block entry point: sound and complete for the compression of the initial value, and
it refuses any other input length. -/
theorem C14_block_no_padding (p : Nat) [Fact p.Prime] (hp : 64 ≤ Nat.size p)
    (input : List Boolean) (cs : CS (ZMod p)) (block : List Bool) :
    (∀ out cs' w, blockNoPadding (capacity p) input cs = .ok (out, cs') → w .one = 1 → cs'.Sat w →
      List.Forall₂ (fun b x => b.Rep w x) input block →
      cs.Sat w ∧ List.Forall₂ (fun b x => Boolean.Rep w b x) out
        (Sha256.compress Sha256.iv ((chunks 32 block).map wordBE)).toBits) ∧
    (cs.Good → input.length = 512 → List.Forall₂ (fun b x => b.Known cs x) input block →
      ∃ out cs', blockNoPadding (capacity p) input cs = .ok (out, cs') ∧ cs.Ext cs' ∧ cs'.Good ∧
        List.Forall₂ (fun b x => Boolean.Known cs' b x) out
          (Sha256.compress Sha256.iv ((chunks 32 block).map wordBE)).toBits) ∧
    (input.length ≠ 512 → blockNoPadding (capacity p) input cs = .error .panic) := by
  have h63 : 63 ≤ capacity p := by unfold capacity; omega
  refine ⟨fun out cs' w hrun hone hsat hin => ?_, fun hg hl hin => ?_, fun h => ?_⟩
  · have hl : input.length = 512 := by
      by_contra h
      unfold blockNoPadding at hrun
      rw [if_neg h] at hrun
      simp [panicS] at hrun
    obtain ⟨e, q⟩ := (blockNoPadding_impl (capOK_zmod p) h63 input block hl).snd cs out cs' hrun
    exact ⟨e.sat hsat, (q w hone hsat).2 hin⟩
  · exact (blockNoPadding_impl (capOK_zmod p) h63 input block hl).cmp cs hin hg
  · unfold blockNoPadding
    rw [if_neg h]; rfl

/-- Soundness of the full hash, for every message length: in every satisfying assignment the output
bits represent the SHA-256 hash of the message the input bits represent. -/
theorem C15_sha256_sound (p : Nat) [Fact p.Prime] (hp : 64 ≤ Nat.size p) (input out : List Boolean)
    (cs cs' : CS (ZMod p)) (hrun : sha256 (capacity p) input cs = .ok (out, cs'))
    (w : Index → ZMod p) (hone : w .one = 1) (hsat : cs'.Sat w) (msg : List Bool)
    (hin : List.Forall₂ (fun b x => b.Rep w x) input msg) :
    cs.Sat w ∧ List.Forall₂ (fun b x => b.Rep w x) out (Sha256.hash msg) := by
  have h8 : input.length % 8 = 0 := by
    by_contra h
    unfold sha256 at hrun
    rw [if_neg h] at hrun
    simp [panicS] at hrun
  obtain ⟨e, q⟩ := (sha256_impl (capOK_zmod p) (by unfold capacity; omega) input msg
    hin.length_eq h8).snd cs out cs' hrun
  exact ⟨e.sat hsat, (q w hone hsat).2 hin⟩

/-- Completeness for every whole-byte message, including the empty one. -/
theorem C15_sha256_complete (p : Nat) [Fact p.Prime] (hp : 64 ≤ Nat.size p) (input : List Boolean)
    (cs : CS (ZMod p)) (hgood : cs.Good) (msg : List Bool) (h8 : msg.length % 8 = 0)
    (hin : List.Forall₂ (fun b x => b.Known cs x) input msg) :
    ∃ out cs', sha256 (capacity p) input cs = .ok (out, cs') ∧ cs.Ext cs' ∧ cs'.Good ∧
      List.Forall₂ (fun b x => b.Known cs' x) out (Sha256.hash msg) :=
  (sha256_impl (capOK_zmod p) (by unfold capacity; omega) input msg
    hin.length_eq (by rw [hin.length_eq]; exact h8)).cmp cs hin hgood

/-- Inputs that are not whole bytes are refused. -/
theorem C15_sha256_refuses {F : Type} [Field F] (cap : Nat) (input : List Boolean) (cs : CS F)
    (h : input.length % 8 ≠ 0) : sha256 cap input cs = .error .panic := by
  unfold sha256
  rw [if_neg h]; rfl

/-- The specification yields the published test vector for the empty message
(`e3b0c442 98fc1c14 …`), so the constants and byte orders of `Verif.Spec.Sha256` are SHA-256's. -/
theorem C15_spec_empty_vector : (chunks 32 (Sha256.hash [])).map wordBE =
    [0xe3b0c442#32, 0x98fc1c14#32, 0x9afbf4c8#32, 0x996fb924#32, 0x27ae41e4#32, 0x649b934c#32,
     0xa495991b#32, 0x7852b855#32] := by decide +kernel

/-- C14/C15, concrete case: the BLS12-381 scalar field is large enough, and an allocated word gives
a good proving state whose 32 bits are circuit variables with known values. -/
example : 64 ≤ Nat.size blsR ∧ ∃ (input : List Boolean) (cs : CS (ZMod blsR)), cs.Good ∧
    input.length = 32 ∧
    List.Forall₂ (fun b x => b.Known cs x) input (bitsLE 0xdeadbeef#32) := by
  refine ⟨by rw [size_blsR]; omega, ?_⟩
  obtain ⟨u, cs', -, -, hg, hk⟩ := UInt32G.alloc_cmp (cs := CS.new true) 0xdeadbeef#32
    (CS.good_new (F := ZMod blsR))
  have h := (DK_good cs').toBits u _ hk
  exact ⟨u.bits, cs', hg, h.length_eq.trans (length_bitsLE _), h⟩

end Zkp
