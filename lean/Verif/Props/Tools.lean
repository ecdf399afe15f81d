/- Properties C65-C69, C73: curve25519 constants, contracts, command-line tool. -/
import Verif.Model.Curve25519
import Verif.Model.Cli
import Verif.Model.Contracts
import Verif.Props.Bulletproofs
import Verif.Props.Hashes
import Verif.Proof.BlsPrime

set_option linter.unusedSectionVars false
set_option linter.unusedSimpArgs false

namespace Zkp

/-! ### C65: curve25519 constants -/

section
open Curve25519

/-- The order of the curve25519 prime-order subgroup (RFC 7748, 4.1). -/
def ell : Nat := 2 ^ 252 + 27742317777372353535851937790883648493

/-- The statement of C65: every constant satisfies its defining equation (as documented in fr.rs and in
the `FpParameters`, `FftParameters` traits of `ark-ff`). -/
structure C65_statement : Prop where
  modulus : limbs MODULUS = ell
  bits : 2 ^ (MODULUS_BITS - 1) ≤ limbs MODULUS ∧ limbs MODULUS < 2 ^ MODULUS_BITS
  capacity : CAPACITY = MODULUS_BITS - 1
  shave : REPR_SHAVE_BITS + MODULUS_BITS = 256
  r : limbs R = 2 ^ 256 % limbs MODULUS
  r2 : limbs R2 = 2 ^ 512 % limbs MODULUS
  inv : INV < 2 ^ 64 ∧ (INV * limbs MODULUS + 1) % 2 ^ 64 = 0
  half : 2 * limbs MODULUS_MINUS_ONE_DIV_TWO = limbs MODULUS - 1
  t : 2 ^ TWO_ADICITY * limbs T = limbs MODULUS - 1 ∧ limbs T % 2 = 1
  t_half : 2 * limbs T_MINUS_ONE_DIV_TWO = limbs T - 1
  root : (limbs TWO_ADIC_ROOT_OF_UNITY) ^ 2 ^ TWO_ADICITY % limbs MODULUS =
    limbs R ^ 2 ^ TWO_ADICITY % limbs MODULUS
  generator : ∃ g, limbs GENERATOR = g * limbs R % limbs MODULUS ∧
    g ^ ((limbs MODULUS - 1) / 2) % limbs MODULUS ≠ 1

/-- C65 is violated in five places: `(q-1)/2`, `t`, `(t-1)/2` have their upper limbs missing (and the last
is not `(t-1)/2` of the printed `t` either), the root of unity is zero. -/
theorem C65_violated :
    2 * limbs MODULUS_MINUS_ONE_DIV_TWO ≠ limbs MODULUS - 1 ∧
    2 ^ TWO_ADICITY * limbs T ≠ limbs MODULUS - 1 ∧ limbs T % 2 ≠ 1 ∧
    2 * limbs T_MINUS_ONE_DIV_TWO ≠ limbs T - 1 ∧
    4 * 2 * limbs T_MINUS_ONE_DIV_TWO ≠ limbs MODULUS - 1 - 4 ∧
    limbs TWO_ADIC_ROOT_OF_UNITY = 0 ∧ ¬ C65_statement := by
  have h : 2 * limbs MODULUS_MINUS_ONE_DIV_TWO ≠ limbs MODULUS - 1 := by decide +kernel
  exact ⟨h, by decide +kernel, by decide +kernel, by decide +kernel, by decide +kernel, by decide +kernel,
    fun s => h s.half⟩

/-- C65 is violated by the generator as well: the constant is the Montgomery form of 9, and `9 = 3²` has
order at most half of `q - 1`, so it does not generate the multiplicative group. -/
theorem C65_generator_violated :
    limbs GENERATOR = 9 * limbs R % limbs MODULUS ∧
    9 ^ ((limbs MODULUS - 1) / 2) % limbs MODULUS = 1 := by
  refine ⟨by decide +kernel, ?_⟩
  rw [← powMod_eq, ← powModF_eq 252 _ _ _ (by decide +kernel)]
  decide +kernel

/-- C65 for the remaining constants: modulus, bit sizes, Montgomery constants. -/
theorem C65_partial : limbs MODULUS = ell ∧
    (2 ^ (MODULUS_BITS - 1) ≤ limbs MODULUS ∧ limbs MODULUS < 2 ^ MODULUS_BITS) ∧
    CAPACITY = MODULUS_BITS - 1 ∧ REPR_SHAVE_BITS + MODULUS_BITS = 256 ∧
    limbs R = 2 ^ 256 % limbs MODULUS ∧ limbs R2 = 2 ^ 512 % limbs MODULUS ∧
    (INV < 2 ^ 64 ∧ (INV * limbs MODULUS + 1) % 2 ^ 64 = 0) ∧
    (limbs MODULUS - 1) % 2 ^ TWO_ADICITY = 0 ∧ (limbs MODULUS - 1) / 2 ^ TWO_ADICITY % 2 = 1 := by
  refine ⟨?_, ⟨?_, ?_⟩, rfl, rfl, ?_, ?_, ⟨?_, ?_⟩, ?_, ?_⟩ <;> decide +kernel

end

/-! ### C66: contracts -/

section
open Contracts

variable {VK P X : Type} (decVk : List UInt8 → Option VK) (decProof : List UInt8 → Option P)
  (decPub : List UInt8 → Option X) (verify : VK → P → X → Option (Option Bool))

/-- C66.  Whatever the cells, the decoders and the verifier: the script ends with code 0 exactly when the
three cells are present, decode, and the verifier answers `true` on the decoded values. -/
theorem C66_exact (cells : Nat → Except SysError (List UInt8)) :
    programEntry (Contracts.main decVk decProof decPub verify cells) = some 0 ↔
      ∃ d0 d1 d2 vk p x, cells 0 = .ok d0 ∧ cells 1 = .ok d1 ∧ cells 2 = .ok d2 ∧
        decVk d0 = some vk ∧ decProof d1 = some p ∧ decPub d2 = some x ∧
        verify vk p x = some (some true) := by
  constructor
  · intro h
    unfold Contracts.main at h
    cases h0 : cells 0 with
    | error e => cases e <;> simp [h0, load, Error.from, Res.bind, programEntry, Error.code] at h
    | ok d0 =>
    cases h1 : cells 1 with
    | error e => cases e <;> simp [h0, h1, load, Error.from, Res.bind, programEntry, Error.code] at h
    | ok d1 =>
    cases h2 : cells 2 with
    | error e => cases e <;> simp [h0, h1, h2, load, Error.from, Res.bind, programEntry, Error.code] at h
    | ok d2 =>
    cases h3 : decVk d0 with
    | none => simp [h0, h1, h2, h3, load, decode, Res.bind, programEntry, Error.code] at h
    | some vk =>
    cases h4 : decProof d1 with
    | none => simp [h0, h1, h2, h3, h4, load, decode, Res.bind, programEntry, Error.code] at h
    | some p =>
    cases h5 : decPub d2 with
    | none => simp [h0, h1, h2, h3, h4, h5, load, decode, Res.bind, programEntry, Error.code] at h
    | some x =>
    refine ⟨d0, d1, d2, vk, p, x, rfl, rfl, rfl, h3, h4, h5, ?_⟩
    simp only [h0, h1, h2, h3, h4, h5, load, decode, Res.bind] at h
    match hv : verify vk p x with
    | none => simp [hv, conclude, programEntry] at h
    | some none => simp [hv, conclude, programEntry, Error.code] at h
    | some (some false) => simp [hv, conclude, programEntry, Error.code] at h
    | some (some true) => rfl
  · rintro ⟨d0, d1, d2, vk, p, x, h0, h1, h2, h3, h4, h5, h6⟩
    simp [Contracts.main, h0, h1, h2, h3, h4, h5, h6, load, decode, Res.bind, conclude, programEntry]

/-- C66, error codes: a missing cell, an undecodable cell and a rejected proof give the documented
codes, in the order of the checks. -/
theorem C66_codes (cells : Nat → Except SysError (List UInt8)) :
    (∀ d0 d1 d2 vk p x, cells 0 = .ok d0 → cells 1 = .ok d1 → cells 2 = .ok d2 →
      decVk d0 = some vk → decProof d1 = some p → decPub d2 = some x →
      (verify vk p x = some (some false) ∨ verify vk p x = some none) →
      programEntry (Contracts.main decVk decProof decPub verify cells) = some 5) ∧
    (∀ d0 d1 d2, cells 0 = .ok d0 → cells 1 = .ok d1 → cells 2 = .ok d2 →
      (decVk d0 = none ∨ decProof d1 = none ∨ decPub d2 = none) →
      programEntry (Contracts.main decVk decProof decPub verify cells) = some 4) ∧
    (∀ i < 3, cells i = .error .indexOutOfBound → (∀ j < i, ∃ d, cells j = .ok d) →
      programEntry (Contracts.main decVk decProof decPub verify cells) = some 1) := by
  refine ⟨?_, ?_, ?_⟩
  · rintro d0 d1 d2 vk p x h0 h1 h2 h3 h4 h5 (h6 | h6) <;>
      simp [Contracts.main, h0, h1, h2, h3, h4, h5, h6, load, decode, Res.bind, conclude, programEntry, Error.code]
  · intro d0 d1 d2 h0 h1 h2 h
    unfold Contracts.main
    simp only [h0, h1, h2, load, decode, Res.bind]
    cases h3 : decVk d0 with
    | none => simp [programEntry, Error.code]
    | some vk =>
    cases h4 : decProof d1 with
    | none => simp [programEntry, Error.code]
    | some p =>
    cases h5 : decPub d2 with
    | none => simp [programEntry, Error.code]
    | some x => rw [h3, h4, h5] at h; simp at h
  · intro i hi h hj
    match i, hi with
    | 0, _ => simp [Contracts.main, h, load, Error.from, Res.bind, programEntry, Error.code]
    | 1, _ =>
      obtain ⟨d0, h0⟩ := hj 0 (by omega)
      simp [Contracts.main, h0, h, load, Error.from, Res.bind, programEntry, Error.code]
    | 2, _ =>
      obtain ⟨d0, h0⟩ := hj 0 (by omega)
      obtain ⟨d1, h1⟩ := hj 1 (by omega)
      simp [Contracts.main, h0, h1, h, load, Error.from, Res.bind, programEntry, Error.code]

/-- C66, unreadable cells: the first cell that cannot be read decides the exit code by its system error; a system error
the contract does not know is a panic. -/
theorem C66_load (cells : Nat → Except SysError (List UInt8)) (i : Nat) (hi : i < 3) (e : SysError)
    (h : cells i = .error e) (hj : ∀ j < i, ∃ d, cells j = .ok d) :
    programEntry (Contracts.main decVk decProof decPub verify cells) =
      match e with
      | .indexOutOfBound => some 1
      | .itemMissing => some 2
      | .lengthNotEnough _ => some 3
      | .encoding => some 4
      | .unknown _ => none := by
  match i, hi with
  | 0, _ => cases e <;> simp [Contracts.main, h, load, Error.from, Res.bind, programEntry, Error.code]
  | 1, _ =>
    obtain ⟨d0, h0⟩ := hj 0 (by omega)
    cases e <;> simp [Contracts.main, h0, h, load, Error.from, Res.bind, programEntry, Error.code]
  | 2, _ =>
    obtain ⟨d0, h0⟩ := hj 0 (by omega)
    obtain ⟨d1, h1⟩ := hj 1 (by omega)
    cases e <;> simp [Contracts.main, h0, h1, h, load, Error.from, Res.bind, programEntry, Error.code]

example : programEntry (Contracts.main (fun d => d.head?) (fun d => d.head?) (fun d => d.head?)
      (fun a b c => some (some (a + b == c))) fun i => if i = 1 then .error (.unknown 7) else .ok [1]) = none :=
  C66_load _ _ _ _ _ 1 (by omega) (.unknown 7) rfl (fun j hj => by
    obtain rfl : j = 0 := by omega
    exact ⟨[1], rfl⟩)

/-- C66 for the two Clinkv2 contracts: the other order of the decoders makes no difference, and a circuit that cannot be run is a
rejected proof.  So C66 holds for them. -/
theorem C66_clink {A : Type} (assemble : Option A) (verify : A → VK → P → X → Option (Option Bool))
    (cells : Nat → Except SysError (List UInt8)) :
    clinkMain decVk decProof decPub assemble verify cells =
      Contracts.main decVk decProof decPub (fun vk p x => match assemble with
        | none => some none
        | some a => verify a vk p x) cells := by
  unfold clinkMain Contracts.main
  cases load (cells 0) with
  | err e => rfl
  | panic => rfl
  | ok d0 =>
  cases load (cells 1) with
  | err e => rfl
  | panic => rfl
  | ok d1 =>
  cases load (cells 2) with
  | err e => rfl
  | panic => rfl
  | ok d2 =>
  simp only [Res.bind, decode]
  cases decProof d1 <;> cases decVk d0 <;> cases decPub d2 <;> cases assemble <;> rfl

/-- An undecodable key with a decodable proof, and a run with code 0. -/
example : programEntry (clinkMain (fun d => d.head?) (fun d => d.head?) (fun d => d.head?) (some (2 : UInt8))
      (fun n a b c => some (some (n * a + b == c))) fun i => if i = 0 then .ok [] else .ok [1]) = some 4 ∧
    programEntry (clinkMain (fun d => d.head?) (fun d => d.head?) (fun d => d.head?) (some (2 : UInt8))
      (fun n a b c => some (some (n * a + b == c))) fun i => if i = 2 then .ok [3] else .ok [1]) = some 0 := by
  constructor
  · rw [C66_clink]
    exact (C66_codes _ _ _ _ _).2.1 [] [1] [1] rfl rfl rfl (.inl rfl)
  · rw [C66_clink]
    exact (C66_exact _ _ _ _ _).2 ⟨[1], [1], [3], 1, 1, 3, rfl, rfl, rfl, rfl, rfl, rfl, rfl⟩

/-- A run with code 0 and one with code 5. -/
example : programEntry (Contracts.main (fun d => d.head?) (fun d => d.head?) (fun d => d.head?)
      (fun a b c => some (some (a + b == c))) fun i => .ok [UInt8.ofNat (i + 1)]) = some 0 ∧
    programEntry (Contracts.main (fun d => d.head?) (fun d => d.head?) (fun d => d.head?)
      (fun a b c => some (some (a == b + c))) fun i => .ok [UInt8.ofNat (i + 1)]) = some 5 := by
  decide

end

/-! ### C67: the Bulletproofs contract -/

section
open Contracts Bp

variable {F : Type} [Field F] [DecidableEq F] {G : Type} [AddCommGroup G] [Module F G] [DecidableEq G]

/-- The circuit `1 · 1 = 1` with one public input, satisfied by everything. -/
def trivialCircuit (x : F) : CS F := ⟨true, [1, x], [], [⟨[(.input 0, 1)], [(.input 0, 1)], [(.input 0, 1)]⟩]⟩

/-- C67 is violated.  Whatever the contents of the key cell, for every public input there is a proof cell
with which the contract succeeds: it carries the trivial circuit `1 · 1 = 1` and an honest proof of it
(no forgery is needed).  `enc` is the serialization of the triple. -/
theorem C67_violated (ch : Oracle F G) (hch : ∀ t, ch t ≠ 0)
    (decProof : List UInt8 → Option (Generators G × R1csCircuit F × Bp.Proof F G))
    (enc : Generators G × R1csCircuit F × Bp.Proof F G → List UInt8) (henc : ∀ t, decProof (enc t) = some t)
    (decPub : List UInt8 → Option F) (vkData pubData : List UInt8) (x : F) (hx : decPub pubData = some x) :
    ∃ proofData, programEntry (bulletproofsMain ch decProof decPub
      (fun i => if i = 0 then .ok vkData else if i = 1 then .ok proofData else .ok pubData)) = some 0 := by
  have h1 : nextPow2 (max (trivialCircuit x).constraints.length (trivialCircuit x).aux.length) = 1 := by
    simp [trivialCircuit, nextPow2]
  have hsat : (trivialCircuit x).Sat (trivialCircuit x).witness := by
    intro k hk
    have : k = ⟨[(.input 0, 1)], [(.input 0, 1)], [(.input 0, 1)]⟩ := by simpa [trivialCircuit] using hk
    subst this
    simp [R1C.Holds, LC.eval, CS.witness, trivialCircuit]
  obtain ⟨⟨gens, circuit, p⟩, hr⟩ := bulletproofs_prover_succeeds ch hch (trivialCircuit x)
    (by simp [trivialCircuit]) (by simp [Groth16.inRange, trivialCircuit]) [0] [0] (0 : G) 0 0
    ⟨[0], [0], 0, 0, 0, 0, 0, 0, 0, 0, 0, 0, 0, 0⟩ (by rw [h1]; rfl) (by rw [h1]; rfl)
  have hv := (bulletproofs_complete ch (trivialCircuit x) [x] rfl (by
    intro k hk
    have : k = ⟨[(.input 0, 1)], [(.input 0, 1)], [(.input 0, 1)]⟩ := by simpa [trivialCircuit] using hk
    subst this
    simp [LC.NoRepeat]) hsat [0] [0] 0 0 0 _ (by rw [h1]; rfl) (by rw [h1]; rfl)
    (by simp [trivialCircuit]) (by simp [trivialCircuit]) gens circuit p hr).2.2
  refine ⟨enc (gens, circuit, p), ?_⟩
  simp [bulletproofsMain, load, decode, Res.bind, henc, hx, hv, conclude, programEntry]

/-- C67, what holds: the contract succeeds exactly when the cells are present, proof and public cell
decode and the verifier accepts for the circuit *in the proof cell*; the content of the key cell does not
matter. -/
theorem C67_partial (ch : Oracle F G)
    (decProof : List UInt8 → Option (Generators G × R1csCircuit F × Bp.Proof F G))
    (decPub : List UInt8 → Option F) (cells : Nat → Except SysError (List UInt8)) :
    programEntry (bulletproofsMain ch decProof decPub cells) = some 0 ↔
      ∃ d0 d1 d2 gens circuit p x, cells 0 = .ok d0 ∧ cells 1 = .ok d1 ∧ cells 2 = .ok d2 ∧
        decProof d1 = some (gens, circuit, p) ∧ decPub d2 = some x ∧
        verifyProof ch gens p circuit [x] = some true := by
  constructor
  · intro h
    unfold bulletproofsMain at h
    cases h0 : cells 0 with
    | error e => cases e <;> simp [h0, load, Error.from, Res.bind, programEntry, Error.code] at h
    | ok d0 =>
    cases h1 : cells 1 with
    | error e => cases e <;> simp [h0, h1, load, Error.from, Res.bind, programEntry, Error.code] at h
    | ok d1 =>
    cases h2 : cells 2 with
    | error e => cases e <;> simp [h0, h1, h2, load, Error.from, Res.bind, programEntry, Error.code] at h
    | ok d2 =>
    cases h4 : decProof d1 with
    | none => simp [h0, h1, h2, h4, load, decode, Res.bind, programEntry, Error.code] at h
    | some t =>
    obtain ⟨gens, circuit, p⟩ := t
    cases h5 : decPub d2 with
    | none => simp [h0, h1, h2, h4, h5, load, decode, Res.bind, programEntry, Error.code] at h
    | some x =>
    refine ⟨d0, d1, d2, gens, circuit, p, x, rfl, rfl, rfl, h4, h5, ?_⟩
    simp only [h0, h1, h2, h4, h5, load, decode, Res.bind] at h
    match hv : verifyProof ch gens p circuit [x] with
    | none => simp [hv, conclude, programEntry] at h
    | some false => simp [hv, conclude, programEntry, Error.code] at h
    | some true => rfl
  · rintro ⟨d0, d1, d2, gens, circuit, p, x, h0, h1, h2, h4, h5, h6⟩
    simp [bulletproofsMain, h0, h1, h2, h4, h5, h6, load, decode, Res.bind, conclude, programEntry]

end

/-! ### C68: hexadecimal text -/

section
open Cli

theorem toDigit_hexDigit (d : Nat) (h : d < 16) : toDigit (hexDigit d) = some d := by
  have : ∀ d < 16, toDigit (hexDigit d) = some d := by decide
  exact this d h

theorem hexDigit_props (d : Nat) (h : d < 16) : hexDigit d ≠ 43 ∧ hexDigit d < 128 := by
  have : ∀ d < 16, hexDigit d ≠ 43 ∧ hexDigit d < 128 := by decide
  exact this d h

theorem fromHexLoop_toHex (v acc : List UInt8) : fromHexLoop (toHex v) acc = .ok (acc ++ v) := by
  induction v generalizing acc with
  | nil => simp [toHex, fromHexLoop]
  | cons b v ih =>
    have hb := b.toNat_lt
    have h1 : b.toNat / 16 < 16 := by omega
    have h2 : b.toNat % 16 < 16 := by omega
    have e : toHex (b :: v) = hexDigit (b.toNat / 16) :: hexDigit (b.toNat % 16) :: toHex v := by
      simp [toHex]
    have hbd : boundary (toHex v) = true := by
      cases v with
      | nil => rfl
      | cons c v =>
        have := (hexDigit_props (c.toNat / 16) (by have := c.toNat_lt; omega)).2
        have e : toHex (c :: v) = hexDigit (c.toNat / 16) :: hexDigit (c.toNat % 16) :: toHex v := by simp [toHex]
        rw [e]
        simp [boundary]; omega
    rw [e, fromHexLoop, if_pos hbd]
    unfold parseU8
    rw [if_neg (hexDigit_props _ h1).1, toDigit_hexDigit _ h1, toDigit_hexDigit _ h2]
    simp only
    rw [ih]
    have : UInt8.ofNat (b.toNat / 16 * 16 + b.toNat % 16) = b := by
      rw [Nat.div_add_mod']; simp
    rw [this]; simp

/-- C68, round trip: decoding what `to_hex` produced returns the bytes. -/
theorem C68_roundtrip (v : List UInt8) : fromHex (toHex v) = .ok v := by
  unfold fromHex
  have : (toHex v).length % 2 = 0 := by
    induction v with
    | nil => rfl
    | cons b v ih =>
      have e : toHex (b :: v) = hexDigit (b.toNat / 16) :: hexDigit (b.toNat % 16) :: toHex v := by
        simp [toHex]
      rw [e, List.length_cons, List.length_cons]; omega
  rw [if_neg (by omega), fromHexLoop_toHex, List.nil_append]

/-- C68, odd length is refused. -/
theorem C68_odd (s : List Nat) (h : s.length % 2 = 1) : fromHex s = .err := by
  unfold fromHex; rw [if_pos (by omega)]

example : ([97, 98, 99] : List Nat).length % 2 = 1 := rfl

/-- A hexadecimal digit. -/
def IsHex (c : Nat) : Prop := (48 ≤ c ∧ c ≤ 57) ∨ (97 ≤ c ∧ c ≤ 102) ∨ (65 ≤ c ∧ c ≤ 70)

/-- C68 is violated: `"+f"` contains a character that is not a digit but is decoded (to 15); and some
text (`"aéb"`) is neither decoded nor refused but panics. -/
theorem C68_violated : (∃ c ∈ [43, 102], ¬ IsHex c) ∧ fromHex [43, 102] = .ok [15] ∧
    fromHex [97, 195, 169, 98] = .panic := by
  refine ⟨⟨43, by simp, by simp [IsHex]⟩, by decide, by decide⟩

theorem toDigit_isHex (c : Nat) : (toDigit c).isSome ↔ IsHex c := by
  unfold toDigit IsHex
  split
  · simp; omega
  · split
    · simp; omega
    · split
      · simp; omega
      · simp; omega

/-- Pairs of characters that are decoded. -/
def PairOk (a b : Nat) : Prop := (IsHex a ∨ a = 43) ∧ IsHex b

/-- The text is a sequence of decodable pairs. -/
def PairsOk : List Nat → Prop
  | a :: b :: rest => PairOk a b ∧ PairsOk rest
  | [] => True
  | [_] => False

theorem parseU8_isSome (a b : Nat) : (parseU8 a b).isSome ↔ PairOk a b := by
  unfold parseU8 PairOk
  have ha := toDigit_isHex a
  have hb := toDigit_isHex b
  split
  · rename_i h
    rw [Option.isSome_map, hb]
    simp [h]
  · rename_i h
    cases h1 : toDigit a <;> cases h2 : toDigit b <;> simp_all

/-- C68, what holds for all texts: exactly the sequences of pairs "digit digit" or "+ digit" are decoded;
so a text with any character other than a digit or `+` is not. -/
theorem C68_partial (s : List Nat) : (∃ v, fromHex s = .ok v) ↔ PairsOk s := by
  have key : ∀ n (s : List Nat) (acc : List UInt8), s.length = 2 * n →
      ((∃ v, fromHexLoop s acc = .ok v) ↔ PairsOk s) := by
    intro n
    induction n with
    | zero =>
      intro s acc hs
      have : s = [] := List.length_eq_zero_iff.mp (by simpa using hs)
      subst this; simp [fromHexLoop, PairsOk]
    | succ n ih =>
      intro s acc hs
      match s, hs with
      | a :: b :: rest, hs =>
        have hl : rest.length = 2 * n := by simp at hs; omega
        rw [fromHexLoop, PairsOk]
        by_cases hbd : boundary rest = true
        · rw [if_pos hbd]
          cases hp : parseU8 a b with
          | none =>
            have : ¬ PairOk a b := by rw [← parseU8_isSome, hp]; simp
            simp [this]
          | some x =>
            have : PairOk a b := by rw [← parseU8_isSome, hp]; simp
            simp only [this, true_and]
            exact ih rest _ hl
        · rw [if_neg hbd]
          constructor
          · rintro ⟨v, hv⟩; cases hv
          · rintro ⟨-, hr⟩
            exfalso
            apply hbd
            match rest, hr with
            | [], _ => rfl
            | c :: d :: rest, hr =>
              have := hr.1.1
              unfold IsHex at this
              simp [boundary]; omega
  unfold fromHex
  by_cases h : s.length % 2 = 0
  · rw [if_neg (by omega)]
    exact key (s.length / 2) s [] (by omega)
  · rw [if_pos (by omega)]
    constructor
    · rintro ⟨v, hv⟩; cases hv
    · intro hp
      exfalso
      apply h
      have : ∀ n (s : List Nat), s.length ≤ n → PairsOk s → s.length % 2 = 0 := by
        intro n
        induction n with
        | zero => intro s hs _; have : s.length = 0 := by omega
                  omega
        | succ n ih =>
          intro s hs hp
          match s, hp with
          | [], _ => rfl
          | a :: b :: rest, hp =>
            have := ih rest (by simp at hs; omega) hp.2
            simp; omega
      exact this _ s (le_refl _) hp

/-- A text that is refused. -/
example : ¬ PairsOk [97, 103] ∧ PairsOk [97, 98] := by
  simp [PairsOk, PairOk, IsHex]

end

/-! ### C69: the hash circuit of the command-line tool -/

section
open Cli

/-- A freshly allocated public input is unconstrained. -/
theorem allocInput_free {F : Type} [Field F] {cs : CS F} (hg : cs.Good) (f x : F) :
    ∃ cs', allocInput (.ok f) cs = .ok (.input cs.inputs.length, cs') ∧
      ∃ w : Index → F, w .one = 1 ∧ cs'.Sat w ∧ cs.Agrees w ∧ w (.input cs.inputs.length) = x := by
  refine ⟨{ cs with inputs := cs.inputs ++ [f] }, by simp [allocInput, hg.proving], ?_⟩
  let w : Index → F := fun i => if i = .input cs.inputs.length then x else cs.witness i
  have hw : cs.Agrees w := by
    constructor
    · intro i v h
      have := cs.witness_agrees.1 i v h
      have hi : i < cs.inputs.length := (List.getElem?_eq_some_iff.mp h).1
      have : w (.input i) = cs.witness (.input i) := by
        simp only [w]
        rw [if_neg (by simp; omega)]
      rw [this]; assumption
    · intro i v h
      have := cs.witness_agrees.2 i v h
      simpa [w] using this
  exact ⟨w, hg.one_eq hw, hg.valid w hw, hw, by simp [w]⟩

theorem hashBytes_some (p n : Nat) [Fact p.Prime] (hn : 0 < n) (k : List (ZMod p)) (b : List UInt8)
    (hb : b ≠ []) : ∃ xl xr h, Mimc.hashBytes n b k = some (xl, xr, h) := by
  unfold Mimc.hashBytes Mimc.hashElems
  have : bytesToField p n b ≠ [] := by
    unfold bytesToField chunks
    rw [dif_neg (by simp only [not_or]; exact ⟨by omega, hb⟩)]
    simp
  cases hl : (bytesToField p n b).getLast? with
  | none => exact absurd (List.getLast?_eq_none_iff.mp hl) this
  | some x => exact ⟨_, _, _, rfl⟩

/-- C69 is violated for every preimage and every field: after an honest run the public image can be given
any value `y` at all, keeping all constraints satisfied. -/
theorem C69_violated (p n : Nat) [Fact p.Prime] (hn : 0 < n) (k : List (ZMod p)) (b : List UInt8)
    (hb : b ≠ []) :
    ∃ cs i, hashCircuit n k (some b) (CS.new true) = .ok (.input i, cs) ∧
      ∀ y, ∃ w : Index → ZMod p, w .one = 1 ∧ cs.Sat w ∧ w (.input i) = y := by
  obtain ⟨xl, xr, h, hh⟩ := hashBytes_some p n hn k b hb
  obtain ⟨r, cs1, h1, e1, g1, _⟩ := Mimc.circuit_cmp k (cs := CS.new true) xl xr CS.good_new
  obtain ⟨cs2, h2, h3⟩ := allocInput_free g1 h 0
  refine ⟨cs2, cs1.inputs.length, ?_, fun y => ?_⟩
  · unfold hashCircuit Mimc.mimc
    simp only [hh]
    simp only [bind, StateT.bind, Except.bind, h1, pure, StateT.pure, Except.pure, okOr, h2]
  · obtain ⟨cs2', h2', w, a, b, c, d⟩ := allocInput_free g1 h y
    rw [h2, Except.ok.injEq, Prod.mk.injEq] at h2'
    obtain ⟨-, rfl⟩ := h2'
    exact ⟨w, a, b, d⟩

/-- C69, what holds: an honest run publishes the MiMC hash of the preimage and satisfies all constraints.
Missing: that no other image can be published, which is false. -/
theorem C69_partial (p n : Nat) [Fact p.Prime] (hn : 0 < n) (k : List (ZMod p)) (b : List UInt8)
    (hb : b ≠ []) :
    ∃ cs i y, hashCircuit n k (some b) (CS.new true) = .ok (i, cs) ∧ Mimc.hash n b k = some y ∧
      cs.Sat cs.witness ∧ cs.witness i = y := by
  obtain ⟨xl, xr, h, hh⟩ := hashBytes_some p n hn k b hb
  have : Cmp (CS.new true) (hashCircuit n k (some b)) (fun i cs' => VarIs cs' i h) := by
    unfold hashCircuit Mimc.mimc
    simp only [hh]
    refine Cmp.bind (P := fun v _ => v = some h) ?_ ?_
    · exact (Mimc.circuit_cmp k xl xr).bind fun _ _ _ _ => Cmp.pure rfl
    · rintro _ cs' _ rfl
      exact Cmp.allocInput' rfl
  obtain ⟨i, cs', h1, -, g, hv⟩ := this CS.good_new
  exact ⟨cs', i, h, h1, by simp [Mimc.hash, hh], g.sat, hv _ cs'.witness_agrees⟩

example : ∃ (p n : Nat) (_ : Fact p.Prime) (b : List UInt8), 0 < n ∧ b ≠ [] := ⟨17, 32, inferInstance, [1], by simp⟩

/-! ### C73: the product circuit of the command-line tool and the contracts -/

/-- C73, soundness: every satisfying assignment of the demonstration circuit has `x · (y + 2) = z` for its
variables (with at least one copy of the constraint). -/
theorem C73_sound {F : Type} [Field F] (x y z : Option F) (num : Nat) (hn : 0 < num) (cs cs' : CS F)
    (vx vy vz : Index) (hrun : mini x y z num cs = .ok ((vx, vy, vz), cs')) (w : Index → F) (h1 : w .one = 1)
    (hs : cs'.Sat w) : w vx * (w vy + 2) = w vz := by
  have key : Snd (mini x y z num) (fun w r => w r.1 * (w r.2.1 + 2) = w r.2.2) := by
    unfold mini
    refine (Snd.alloc _).bind fun a => (Snd.alloc _).bind fun b => (Snd.allocInput _).bind fun c => ?_
    have hl : ∀ m, Snd (miniLoop (F := F) a b c m) (fun w _ => 0 < m → w a * (w b + 2) = w c) := by
      intro m
      induction m with
      | zero => exact Snd.pure fun _ _ h => absurd h (by omega)
      | succ m ih =>
        unfold miniLoop
        refine (Snd.enforce _ _ _).bind fun _ => ih.weaken ?_
        intro w h1 _ _ he _
        simpa [h1] using he
    refine (hl num).bind fun _ => Snd.pure ?_
    intro w _ h _ _ _
    exact h hn
  exact (key _ _ _ hrun).2 w h1 hs

/-- C73, completeness: with values satisfying the relation the run succeeds, all constraints hold and the
public input is `z`. -/
theorem C73_complete {F : Type} [Field F] (x y : F) (num : Nat) :
    ∃ vx vy cs', mini (some x) (some y) (some (x * (y + 2))) num (CS.new true) =
      .ok ((vx, vy, .input 1), cs') ∧ cs'.Sat cs'.witness ∧ cs'.inputs = [1, x * (y + 2)] ∧
      cs'.constraints.length = num := by
  refine ⟨.aux 0, .aux 1, ?_⟩
  have hl : ∀ m (cs : CS F), miniLoop (.aux 0) (.aux 1) (.input 1) m cs = .ok ((), { cs with
      constraints := cs.constraints ++ List.replicate m ⟨LC.zero.addVar (.aux 0),
        (LC.zero.addVar (.aux 1)).addTerm 2 .one, LC.zero.addVar (.input 1)⟩ }) := by
    intro m
    induction m with
    | zero => intro cs; simp [miniLoop, pure, StateT.pure, Except.pure]
    | succ m ih =>
      intro cs
      simp [miniLoop, bind, StateT.bind, Except.bind, enforce, ih, List.replicate_succ]
  refine ⟨⟨true, [1, x * (y + 2)], [x, y], List.replicate num ⟨LC.zero.addVar (.aux 0),
    (LC.zero.addVar (.aux 1)).addTerm 2 .one, LC.zero.addVar (.input 1)⟩⟩, by simp [mini, bind, StateT.bind, Except.bind, alloc, allocInput, okOr, CS.new, hl, pure, StateT.pure,
    Except.pure], ?_, rfl, by simp⟩
  intro k hk
  have hk := (List.mem_replicate.mp hk).2
  subst hk
  simp [R1C.Holds, CS.witness, Index.one]

/-- A run meeting the hypotheses. -/
example : ∃ vx vy cs', mini (some 3) (some 4) (some ((3 : ℚ) * (4 + 2))) 10 (CS.new true) =
    .ok ((vx, vy, .input 1), cs') ∧ cs'.Sat cs'.witness ∧ cs'.inputs = [1, (3 : ℚ) * (4 + 2)] ∧
      cs'.constraints.length = 10 := C73_complete 3 4 10

end

end Zkp
