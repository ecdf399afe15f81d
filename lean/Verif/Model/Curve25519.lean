/- Model of the constants in /repo/curve25519/src/fr.rs. -/
namespace Zkp.Curve25519

/-- A `BigInteger256`: limbs of 64 bits, least significant first (external crate `ark-ff`). -/
def limbs (l : List Nat) : Nat := l.foldr (fun x n => x + 2 ^ 64 * n) 0

/-- fr.rs:16 `TWO_ADICITY`. -/
def TWO_ADICITY : Nat := 2

/-- fr.rs:18-24 `TWO_ADIC_ROOT_OF_UNITY`. -/
def TWO_ADIC_ROOT_OF_UNITY : List Nat := [0x0, 0x0, 0x0, 0x0]

/-- fr.rs:33-38 `MODULUS`. -/
def MODULUS : List Nat := [6346243789798364141, 1503914060200516822, 0, 1152921504606846976]

/-- fr.rs:40 `MODULUS_BITS`. -/
def MODULUS_BITS : Nat := 253

/-- fr.rs:42 `CAPACITY`. -/
def CAPACITY : Nat := MODULUS_BITS - 1

/-- fr.rs:44 `REPR_SHAVE_BITS`. -/
def REPR_SHAVE_BITS : Nat := 3

/-- fr.rs:47-52 `R`. -/
def R : List Nat := [15486807595281847581, 14334777244411350896, 18446744073709551614, 1152921504606846975]

/-- fr.rs:55-60 `R2`. -/
def R2 : List Nat := [11819153939886771969, 14991950615390032711, 14910419812499177061, 259310039853996605]

/-- fr.rs:63 `INV`. -/
def INV : Nat := 15183074304973897243

/-- fr.rs:66-71 `GENERATOR` (in Montgomery form). -/
def GENERATOR : List Nat :=
  [14824341744311508637, 6301218275840713796, 18446744073709551604, 1152921504606846975]

/-- fr.rs:75-80 `MODULUS_MINUS_ONE_DIV_TWO`. -/
def MODULUS_MINUS_ONE_DIV_TWO : List Nat := [13876462170967809896, 12031312481604134578, 0, 0]

/-- fr.rs:84-89 `T`. -/
def T : List Nat := [6938231085483904948, 6015656240802067289, 0, 0]

/-- fr.rs:93-98 `T_MINUS_ONE_DIV_TWO`. -/
def T_MINUS_ONE_DIV_TWO : List Nat := [2367949182742163228, 18046968722406201868, 0, 0]

end Zkp.Curve25519
