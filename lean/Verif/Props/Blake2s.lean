/- C16: the BLAKE2s circuit computes BLAKE2s-256 (RFC 7693, `Verif.Spec.Blake2s`). -/
import Verif.Proof.Blake2s
import Verif.Props.Sha256

set_option linter.unusedSectionVars false
set_option linter.unusedSimpArgs false

namespace Zkp

open Blake

/-- Soundness, for every message length and every personalization: in every satisfying assignment
the output bits represent the BLAKE2s-256 hash of the message the input bits represent. -/
theorem C16_blake2s_sound (p : Nat) [Fact p.Prime] (hp : 64 ≤ Nat.size p)
    (input out : List Boolean) (pers : List (BitVec 8))
    (cs cs' : CS (ZMod p)) (hrun : blake2s (capacity p) input pers cs = .ok (out, cs'))
    (w : Index → ZMod p) (hone : w .one = 1) (hsat : cs'.Sat w) (msg : List Bool)
    (hin : List.Forall₂ (fun b x => b.Rep w x) input msg) :
    cs.Sat w ∧ List.Forall₂ (fun b x => b.Rep w x) out (Blake2s.hash msg pers) := by
  have h8 : pers.length = 8 ∧ input.length % 8 = 0 := by
    by_contra h
    unfold blake2s at hrun
    rw [if_neg h] at hrun
    simp [panicS] at hrun
  obtain ⟨e, q⟩ := (blake2s_impl (capOK_zmod p) (by unfold capacity; omega) input pers msg
    hin.length_eq h8.2 h8.1).snd cs out cs' hrun
  exact ⟨e.sat hsat, (q w hone hsat).2 hin⟩

/-- Completeness for every whole-byte message, including the empty one. -/
theorem C16_blake2s_complete (p : Nat) [Fact p.Prime] (hp : 64 ≤ Nat.size p)
    (input : List Boolean) (pers : List (BitVec 8)) (hpers : pers.length = 8)
    (cs : CS (ZMod p)) (hgood : cs.Good) (msg : List Bool) (h8 : msg.length % 8 = 0)
    (hin : List.Forall₂ (fun b x => b.Known cs x) input msg) :
    ∃ out cs', blake2s (capacity p) input pers cs = .ok (out, cs') ∧ cs.Ext cs' ∧ cs'.Good ∧
      List.Forall₂ (fun b x => b.Known cs' x) out (Blake2s.hash msg pers) :=
  (blake2s_impl (capOK_zmod p) (by unfold capacity; omega) input pers msg
    hin.length_eq (by rw [hin.length_eq]; exact h8) hpers).cmp cs hin hgood

/-- Inputs that are not whole bytes, and personalizations that are not eight bytes, are refused. -/
theorem C16_blake2s_refuses {F : Type} [Field F] (cap : Nat) (input : List Boolean)
    (pers : List (BitVec 8)) (cs : CS F) (h : input.length % 8 ≠ 0 ∨ pers.length ≠ 8) :
    blake2s cap input pers cs = .error .panic := by
  unfold blake2s
  rw [if_neg (by tauto)]; rfl

/-- The specification yields the published test vector of RFC 7693 (appendix B), `abc` without
personalization: `508c5e8c 327c14e2 …`. -/
theorem C16_spec_abc_vector : (chunks 32 (Blake2s.hash
      ([0x61#8, 0x62#8, 0x63#8].flatMap fun c => (List.range 8).map fun i => c.getLsbD i)
      (List.replicate 8 0#8))).map wordLE =
    [0x8c5e8c50#32, 0xe2147c32#32, 0xa32ba7e1#32, 0x2f45eb4e#32, 0x208b4537#32, 0x293ad69e#32,
     0x4c9b994d#32, 0x82596786#32] := by decide +kernel

/-- C16, concrete case: the BLS12-381 scalar field is large enough, and an allocated word gives a
good proving state whose 32 bits are circuit variables with known values. -/
example : 64 ≤ Nat.size blsR ∧ ∃ (input : List Boolean) (cs : CS (ZMod blsR)), cs.Good ∧
    input.length = 32 ∧
    List.Forall₂ (fun b x => b.Known cs x) input (bitsLE 0xdeadbeef#32) := by
  refine ⟨by rw [size_blsR]; omega, ?_⟩
  obtain ⟨u, cs', -, -, hg, hk⟩ := UInt32G.alloc_cmp (cs := CS.new true) 0xdeadbeef#32
    (CS.good_new (F := ZMod blsR))
  have h := (DK_good cs').toBits u _ hk
  exact ⟨u.bits, cs', hg, h.length_eq.trans (length_bitsLE _), h⟩

end Zkp
