/- The integer written by bytes, least significant first. -/
import Mathlib.Data.Nat.Notation

namespace Zkp

def bytesVal (b : List UInt8) : Nat := b.foldr (fun x n => x.toNat + 256 * n) 0

end Zkp
