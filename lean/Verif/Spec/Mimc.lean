/- The MiMC Feistel function (LongsightF, exponent 3) and its chaining, over any field. -/
import Mathlib.Algebra.Field.Defs

namespace Zkp

/-- One block: for every round constant `c`, `(l, r) ↦ (r + (l + c)^3, l)`; the output is the left
half. -/
def mimcSpec {F : Type} [Field F] (k : List F) (xl xr : F) : F :=
  (k.foldl (fun (s : F × F) c => (s.2 + (s.1 + c) ^ 3, s.1)) (xl, xr)).1

/-- Chaining: start from 0, feed the elements one after the other as right halves. -/
def mimcChain {F : Type} [Field F] (k v : List F) : F := v.foldl (fun h x => mimcSpec k h x) 0

end Zkp
