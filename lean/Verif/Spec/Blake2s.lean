/-
BLAKE2s-256, unkeyed, with personalization, transcribed from RFC 7693 (sections 2.1, 2.4-2.7, 3.1-3.3)
and the BLAKE2 parameter block.  Data are bit strings, each byte least significant bit first (so
that a little-endian 32-bit word is 32 consecutive bits, least significant first).
-/
import Verif.Spec.Words

namespace Zkp.Blake2s

/-- RFC 7693, 2.6: the initialization vector (the same as SHA-256's). -/
def IV : List (BitVec 32) :=
  [0x6A09E667#32, 0xBB67AE85#32, 0x3C6EF372#32, 0xA54FF53A#32,
   0x510E527F#32, 0x9B05688C#32, 0x1F83D9AB#32, 0x5BE0CD19#32]

/-- RFC 7693, 2.7: the message word permutations. -/
def SIGMA : List (List Nat) := [
  [ 0,  1,  2,  3,  4,  5,  6,  7,  8,  9, 10, 11, 12, 13, 14, 15],
  [14, 10,  4,  8,  9, 15, 13,  6,  1, 12,  0,  2, 11,  7,  5,  3],
  [11,  8, 12,  0,  5,  2, 15, 13, 10, 14,  3,  6,  7,  1,  9,  4],
  [ 7,  9,  3,  1, 13, 12, 11, 14,  2,  6,  5, 10,  4,  0, 15,  8],
  [ 9,  0,  5,  7,  2,  4, 10, 15, 14,  1, 11, 12,  6,  8,  3, 13],
  [ 2, 12,  6, 10,  0, 11,  8,  3,  4, 13,  7,  5, 15, 14,  1,  9],
  [12,  5,  1, 15, 14, 13,  4, 10,  0,  7,  6,  3,  9,  2,  8, 11],
  [13, 11,  7, 14, 12,  1,  3,  9,  5,  0, 15,  4,  8,  6,  2, 10],
  [ 6, 15, 14,  9, 11,  3,  0,  8, 12,  2, 13,  7,  1,  4, 10,  5],
  [10,  2,  8,  4,  7,  6,  1,  5, 15, 11,  9, 14,  3, 12, 13,  0]]

/-- Word `i` of a vector. -/
def get (v : List (BitVec 32)) (i : Nat) : BitVec 32 := v.getD i 0

/-- RFC 7693, 3.1: the mixing function G with rotations 16, 12, 8, 7. -/
def G (v : List (BitVec 32)) (a b c d : Nat) (x y : BitVec 32) : List (BitVec 32) :=
  let v := v.set a (get v a + get v b + x)
  let v := v.set d ((get v d ^^^ get v a).rotateRight 16)
  let v := v.set c (get v c + get v d)
  let v := v.set b ((get v b ^^^ get v c).rotateRight 12)
  let v := v.set a (get v a + get v b + y)
  let v := v.set d ((get v d ^^^ get v a).rotateRight 8)
  let v := v.set c (get v c + get v d)
  v.set b ((get v b ^^^ get v c).rotateRight 7)

/-- RFC 7693, 3.2: one round. -/
def round (m v : List (BitVec 32)) (i : Nat) : List (BitVec 32) :=
  let s := SIGMA.getD (i % 10) []
  let w := fun j => get m (s.getD j 0)
  let v := G v 0 4  8 12 (w 0) (w 1)
  let v := G v 1 5  9 13 (w 2) (w 3)
  let v := G v 2 6 10 14 (w 4) (w 5)
  let v := G v 3 7 11 15 (w 6) (w 7)
  let v := G v 0 5 10 15 (w 8) (w 9)
  let v := G v 1 6 11 12 (w 10) (w 11)
  let v := G v 2 7  8 13 (w 12) (w 13)
  G v 3 4  9 14 (w 14) (w 15)

/-- RFC 7693, 3.2: the compression function F; `h` has 8 words, `m` has 16. -/
def compress (h m : List (BitVec 32)) (t : Nat) (final : Bool) : List (BitVec 32) :=
  let v := h ++ IV
  let v := v.set 12 (get v 12 ^^^ BitVec.ofNat 32 (t % 2 ^ 32))
  let v := v.set 13 (get v 13 ^^^ BitVec.ofNat 32 (t / 2 ^ 32))
  let v := if final then v.set 14 (get v 14 ^^^ 0xFFFFFFFF#32) else v
  let v := (List.range 10).foldl (round m) v
  (List.range 8).map fun i => get h i ^^^ get v i ^^^ get v (i + 8)

/-- The little-endian word of four bytes. -/
def leWord (b : List (BitVec 8)) : BitVec 32 :=
  BitVec.ofNat 32 (b.foldr (fun x n => x.toNat + 256 * n) 0)

/-- The initial state: IV xor parameter block; digest length 32, no key, fanout and depth 1, and
the eight personalization bytes in the last two words. -/
def init (pers : List (BitVec 8)) : List (BitVec 32) :=
  [get IV 0 ^^^ 0x01010020#32, get IV 1, get IV 2, get IV 3, get IV 4, get IV 5,
   get IV 6 ^^^ leWord (pers.take 4), get IV 7 ^^^ leWord ((pers.drop 4).take 4)]

/-- RFC 7693, 3.3: the data blocks `d[0..dd-1]`: 512 bits each, the last one padded with zeros; the
empty message has one all-zero block. -/
def blocks (msg : List Bool) : List (List (BitVec 32)) :=
  (if msg = [] then [[]] else chunks 512 msg).map fun c =>
    (chunks 32 (c ++ List.replicate (512 - c.length) false)).map wordLE

/-- RFC 7693, 3.3: BLAKE2s-256 of a whole-byte message. -/
def hash (msg : List Bool) (pers : List (BitVec 8)) : List Bool :=
  let d := blocks msg
  let h := (List.range (d.length - 1)).foldl
    (fun h i => compress h (d.getD i []) ((i + 1) * 64) false) (init pers)
  (compress h (d.getD (d.length - 1) []) (msg.length / 8) true).flatMap bitsLE

end Zkp.Blake2s
