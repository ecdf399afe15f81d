/- Model of /repo/gadgets/src/hashes/blake2s.rs. -/
import Verif.Model.Sha256
import Verif.Spec.Blake2s

namespace Zkp

variable {F : Type} [Field F]

namespace Blake

open Sha (at_)

/-- blake2s.rs:31-34. -/
def R1 : Nat := 16
/-- blake2s.rs:31-34. -/
def R2 : Nat := 12
/-- blake2s.rs:31-34. -/
def R3 : Nat := 8
/-- blake2s.rs:31-34. -/
def R4 : Nat := 7

/-- blake2s.rs:52-63 `SIGMA`. -/
def SIGMA : List (List Nat) := [
    [0, 1, 2, 3, 4, 5, 6, 7, 8, 9, 10, 11, 12, 13, 14, 15],
    [14, 10, 4, 8, 9, 15, 13, 6, 1, 12, 0, 2, 11, 7, 5, 3],
    [11, 8, 12, 0, 5, 2, 15, 13, 10, 14, 3, 6, 7, 1, 9, 4],
    [7, 9, 3, 1, 13, 12, 11, 14, 2, 6, 5, 10, 4, 0, 15, 8],
    [9, 0, 5, 7, 2, 4, 10, 15, 14, 1, 11, 12, 6, 8, 3, 13],
    [2, 12, 6, 10, 0, 11, 8, 3, 4, 13, 7, 5, 15, 14, 1, 9],
    [12, 5, 1, 15, 14, 13, 4, 10, 0, 7, 6, 3, 9, 2, 8, 11],
    [13, 11, 7, 14, 12, 1, 3, 9, 5, 0, 15, 4, 8, 6, 2, 10],
    [6, 15, 14, 9, 11, 3, 0, 8, 12, 2, 13, 7, 1, 4, 10, 5],
    [10, 2, 8, 4, 7, 6, 1, 5, 15, 11, 9, 14, 3, 12, 13, 0]]

/-- blake2s.rs:87-116 `mixing_g`.  All indices are literals below 16 and `v` has 16 entries, so the
accesses `v[i]` never fail. -/
def mixingG (cap : Nat) (v : List UInt32G) (a b c d : Nat) (x y : UInt32G) :
    MSynth F (List UInt32G) := do
  let va ← UInt32G.addmany cap [at_ v a, at_ v b, x]
  let v := v.set a va
  let vd ← MSynth.lift ((at_ v d).xor (at_ v a))
  let v := v.set d (vd.rotr R1)
  let vc ← UInt32G.addmany cap [at_ v c, at_ v d]
  let v := v.set c vc
  let vb ← MSynth.lift ((at_ v b).xor (at_ v c))
  let v := v.set b (vb.rotr R2)
  let va ← UInt32G.addmany cap [at_ v a, at_ v b, y]
  let v := v.set a va
  let vd ← MSynth.lift ((at_ v d).xor (at_ v a))
  let v := v.set d (vd.rotr R3)
  let vc ← UInt32G.addmany cap [at_ v c, at_ v d]
  let v := v.set c vc
  let vb ← MSynth.lift ((at_ v b).xor (at_ v c))
  return v.set b (vb.rotr R4)

/-- One round, blake2s.rs:203-291. -/
def round (cap : Nat) (m : List UInt32G) (v : List UInt32G) (i : Nat) : MSynth F (List UInt32G) := do
  let s := SIGMA.getD (i % 10) []
  let w := fun j => at_ m (s.getD j 0)
  let v ← mixingG cap v 0 4 8 12 (w 0) (w 1)
  let v ← mixingG cap v 1 5 9 13 (w 2) (w 3)
  let v ← mixingG cap v 2 6 10 14 (w 4) (w 5)
  let v ← mixingG cap v 3 7 11 15 (w 6) (w 7)
  let v ← mixingG cap v 0 5 10 15 (w 8) (w 9)
  let v ← mixingG cap v 1 6 11 12 (w 10) (w 11)
  let v ← mixingG cap v 2 7 8 13 (w 12) (w 13)
  mixingG cap v 3 4 9 14 (w 14) (w 15)

/-- The constants pushed at blake2s.rs:186-193. -/
def ivWords : List UInt32G :=
  [0x6A09E667#32, 0xBB67AE85#32, 0x3C6EF372#32, 0xA54FF53A#32,
   0x510E527F#32, 0x9B05688C#32, 0x1F83D9AB#32, 0x5BE0CD19#32].map UInt32G.constant

/-- The output loop, blake2s.rs:296-301 (`h[i]` is only read and written at its own index). -/
def outputStep (h v : List UInt32G) (acc : List UInt32G) (i : Nat) : Synth F (List UInt32G) := do
  let hi ← (at_ h i).xor (at_ v i)
  let hi ← hi.xor (at_ v (i + 8))
  return acc ++ [hi]

/-- blake2s.rs:166-304 `blake2s_compression`. -/
def compression (cap : Nat) (h m : List UInt32G) (t : Nat) (f : Bool) : Synth F (List UInt32G) :=
  if h.length = 8 ∧ m.length = 16 then do
    let v := h ++ ivWords
    let v12 ← (at_ v 12).xor (UInt32G.constant (BitVec.ofNat 32 t))
    let v := v.set 12 v12
    let v13 ← (at_ v 13).xor (UInt32G.constant (BitVec.ofNat 32 (t >>> 32)))
    let v := v.set 13 v13
    let v ← if f then do
        let v14 ← (at_ v 14).xor (UInt32G.constant 0xFFFFFFFF#32)
        pure (v.set 14 v14)
      else pure v
    let v ← MSynth.scoped ((List.range 10).foldlM (round cap m) v)
    (List.range 8).foldlM (outputStep h v) []
  else panicS

/-- The word loop of blake2s.rs:362-368: pad to 32 bits, `from_bits`. -/
def parseWord (word : List Boolean) : Option UInt32G :=
  UInt32G.fromBits (word ++ List.replicate (32 - word.length) (.constant false))

/-- The block loop of blake2s.rs:360-374. -/
def parseBlock (block : List Boolean) : Option (List UInt32G) :=
  (chunks 32 block).mapM parseWord |>.map fun ws =>
    ws ++ List.replicate (16 - ws.length) (UInt32G.constant 0)

/-- blake2s.rs:333-397 `blake2s`.  `byteorder::LittleEndian::read_u32` is `Blake2s.leWord`. -/
def blake2s (cap : Nat) (input : List Boolean) (pers : List (BitVec 8)) : Synth F (List Boolean) :=
  if pers.length = 8 ∧ input.length % 8 = 0 then do
    let h := [UInt32G.constant (0x6A09E667#32 ^^^ 0x01010000#32 ^^^ 32#32),
      UInt32G.constant 0xBB67AE85#32, UInt32G.constant 0x3C6EF372#32,
      UInt32G.constant 0xA54FF53A#32, UInt32G.constant 0x510E527F#32,
      UInt32G.constant 0x9B05688C#32,
      UInt32G.constant (0x1F83D9AB#32 ^^^ Blake2s.leWord (pers.take 4)),
      UInt32G.constant (0x5BE0CD19#32 ^^^ Blake2s.leWord ((pers.drop 4).take 4))]
    let blocks ← orPanic ((chunks 512 input).mapM parseBlock)
    let blocks := if blocks.isEmpty then [List.replicate 16 (UInt32G.constant 0)] else blocks
    let h ← (List.range (blocks.length - 1)).foldlM
      (fun h i => compression cap h (blocks.getD i []) ((i + 1) * 64) false) h
    let h ← compression cap h (blocks.getD (blocks.length - 1) []) (input.length / 8) true
    return h.flatMap UInt32G.intoBits
  else panicS

end Blake
end Zkp
