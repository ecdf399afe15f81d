/- Model of /repo/gadgets/src/hashes/sha256.rs:18-256. -/
import Verif.Model.UInt32
import Verif.Spec.Words

namespace Zkp

variable {F : Type} [Field F]

/-- Run an `Option` computation whose `none` is a Rust panic. Assertions of sha256.rs:41, 56, 70, 93-94, 127. -/
def orPanic {α : Type} : Option α → Synth F α
  | some a => pure a
  | none => panicS

namespace Sha

/-- sha256.rs:18-27 `ROUND_CONSTANTS`. -/
def roundConstants : List (BitVec 32) := [
  0x428a2f98#32, 0x71374491#32, 0xb5c0fbcf#32, 0xe9b5dba5#32, 0x3956c25b#32, 0x59f111f1#32, 0x923f82a4#32, 0xab1c5ed5#32,
  0xd807aa98#32, 0x12835b01#32, 0x243185be#32, 0x550c7dc3#32, 0x72be5d74#32, 0x80deb1fe#32, 0x9bdc06a7#32, 0xc19bf174#32,
  0xe49b69c1#32, 0xefbe4786#32, 0x0fc19dc6#32, 0x240ca1cc#32, 0x2de92c6f#32, 0x4a7484aa#32, 0x5cb0a9dc#32, 0x76f988da#32,
  0x983e5152#32, 0xa831c66d#32, 0xb00327c8#32, 0xbf597fc7#32, 0xc6e00bf3#32, 0xd5a79147#32, 0x06ca6351#32, 0x14292967#32,
  0x27b70a85#32, 0x2e1b2138#32, 0x4d2c6dfc#32, 0x53380d13#32, 0x650a7354#32, 0x766a0abb#32, 0x81c2c92e#32, 0x92722c85#32,
  0xa2bfe8a1#32, 0xa81a664b#32, 0xc24b8b70#32, 0xc76c51a3#32, 0xd192e819#32, 0xd6990624#32, 0xf40e3585#32, 0x106aa070#32,
  0x19a4c116#32, 0x1e376c08#32, 0x2748774c#32, 0x34b0bcb5#32, 0x391c0cb3#32, 0x4ed8aa4a#32, 0x5b9cca4f#32, 0x682e6ff3#32,
  0x748f82ee#32, 0x78a5636f#32, 0x84c87814#32, 0x8cc70208#32, 0x90befffa#32, 0xa4506ceb#32, 0xbef9a3f7#32, 0xc67178f2#32]

/-- sha256.rs:29-31 `IV`. -/
def IV : List (BitVec 32) := [0x6a09e667#32, 0xbb67ae85#32, 0x3c6ef372#32, 0xa54ff53a#32, 0x510e527f#32, 0x9b05688c#32, 0x1f83d9ab#32, 0x5be0cd19#32]

/-- sha256.rs:80-82 `get_sha256_iv`. -/
def getIv : List UInt32G := IV.map UInt32G.constant

/-- `w[i]`; all indices used below are in range (16 ≤ len, i < 64), so the default is never read. -/
def at_ (w : List UInt32G) (i : Nat) : UInt32G := w.getD i (UInt32G.constant 0)

/-- One iteration of the schedule loop, sha256.rs:104-127. -/
def extendStep (cap : Nat) (w : List UInt32G) (i : Nat) : MSynth F (List UInt32G) := do
  let s0 := (at_ w (i - 15)).rotr 7
  let s0 ← MSynth.lift (s0.xor ((at_ w (i - 15)).rotr 18))
  let s0 ← MSynth.lift (s0.xor ((at_ w (i - 15)).shr 3))
  let s1 := (at_ w (i - 2)).rotr 17
  let s1 ← MSynth.lift (s1.xor ((at_ w (i - 2)).rotr 19))
  let s1 ← MSynth.lift (s1.xor ((at_ w (i - 2)).shr 10))
  let tmp ← UInt32G.addmany cap [at_ w (i - 16), s0, at_ w (i - 7), s1]
  return w ++ [tmp]

/-- sha256.rs:131-134 `enum Maybe`. -/
inductive Maybe where
  | deferred (v : List UInt32G)
  | concrete (v : UInt32G)

/-- sha256.rs:135-148 `Maybe::compute`. -/
def Maybe.compute (cap : Nat) (x : Maybe) (others : List UInt32G) : MSynth F UInt32G :=
  match x with
  | .concrete v => pure v
  | .deferred v => UInt32G.addmany cap (v ++ others)

/-- The working variables, sha256.rs:153-160. -/
structure St where
  a : Maybe
  b : UInt32G
  c : UInt32G
  d : UInt32G
  e : Maybe
  f : UInt32G
  g : UInt32G
  h : UInt32G

/-- One iteration of the compression loop, sha256.rs:162-219. -/
def round (cap : Nat) (w : List UInt32G) (st : St) (i : Nat) : MSynth F St := do
  let newE ← st.e.compute cap []
  let s1 := newE.rotr 6
  let s1 ← MSynth.lift (s1.xor (newE.rotr 11))
  let s1 ← MSynth.lift (s1.xor (newE.rotr 25))
  let ch ← MSynth.lift (UInt32G.sha256Ch newE st.f st.g)
  let temp1 := [st.h, s1, ch, UInt32G.constant (roundConstants.getD i 0), at_ w i]
  let newA ← st.a.compute cap []
  let s0 := newA.rotr 2
  let s0 ← MSynth.lift (s0.xor (newA.rotr 13))
  let s0 ← MSynth.lift (s0.xor (newA.rotr 22))
  let maj ← MSynth.lift (UInt32G.sha256Maj newA st.b st.c)
  let temp2 := [s0, maj]
  return { h := st.g, g := st.f, f := newE, e := .deferred (temp1 ++ [st.d]), d := st.c, c := st.b,
           b := newA, a := .deferred (temp1 ++ temp2) }

/-- sha256.rs:84-256 `sha256_compression_function`. -/
def compression (cap : Nat) (input : List Boolean) (cur : List UInt32G) :
    Synth F (List UInt32G) :=
  if input.length = 512 then
    match cur with
    | [h0, h1, h2, h3, h4, h5, h6, h7] => do
      let w ← orPanic ((chunks 32 input).mapM UInt32G.fromBitsBe)
      MSynth.scoped do
        let w ← (List.range' 16 48).foldlM (extendStep cap) w
        let st ← (List.range 64).foldlM (round cap w)
          ⟨.concrete h0, h1, h2, h3, .concrete h4, h5, h6, h7⟩
        let r0 ← st.a.compute cap [h0]
        let r1 ← UInt32G.addmany cap [h1, st.b]
        let r2 ← UInt32G.addmany cap [h2, st.c]
        let r3 ← UInt32G.addmany cap [h3, st.d]
        let r4 ← st.e.compute cap [h4]
        let r5 ← UInt32G.addmany cap [h5, st.f]
        let r6 ← UInt32G.addmany cap [h6, st.g]
        let r7 ← UInt32G.addmany cap [h7, st.h]
        return [r0, r1, r2, r3, r4, r5, r6, r7]
    | _ => panicS
  else panicS

/-- sha256.rs:33-49 `sha256_block_no_padding`. -/
def blockNoPadding (cap : Nat) (input : List Boolean) : Synth F (List Boolean) :=
  if input.length = 512 then do
    let out ← compression cap input getIv
    return out.flatMap UInt32G.intoBitsBe
  else panicS

/-- The zero padding loop, sha256.rs:64-66: `while (len + 64) % 512 != 0 { push(false) }`. -/
def padZeros (l : List Boolean) : List Boolean :=
  if h : (l.length + 64) % 512 ≠ 0 then padZeros (l ++ [.constant false]) else l
termination_by (512 - (l.length + 64) % 512) % 512
decreasing_by
  simp only [List.length_append, List.length_singleton]
  omega

/-- sha256.rs:51-78 `sha256`.  (`plen >> i` on `u64`: the length of a slice always fits.) -/
def sha256 (cap : Nat) (input : List Boolean) : Synth F (List Boolean) :=
  if input.length % 8 = 0 then
    let plen := input.length
    let padded := padZeros (input ++ [.constant true])
    let padded := padded ++ ((List.range 64).reverse.map fun i => Boolean.constant (plen.testBit i))
    if padded.length % 512 = 0 then do
      let cur ← (chunks 512 padded).foldlM (fun cur block => compression cap block cur) getIv
      return cur.flatMap UInt32G.intoBitsBe
    else panicS
  else panicS

end Sha
end Zkp
