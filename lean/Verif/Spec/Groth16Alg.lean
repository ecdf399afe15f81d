/- Provers that combine the elements of the Groth16 key linearly, with coefficients of their own
choice.  This describes attackers, not code of the repository. -/
import Verif.Model.Groth16

namespace Zkp.Groth16

variable {F : Type} [Field F] {G1 G2 : Type} [AddCommGroup G1] [AddCommGroup G2] [Module F G1]
  [Module F G2]

/-- Coefficients for the elements of the first group: the generator and every element that occurs in
`Parameters` (groth16/src/lib.rs:58-91). -/
structure Coeffs1 (F : Type) where
  gen : F
  alpha : F
  beta : F
  delta : F
  a : List F
  b : List F
  h : List F
  l : List F
  abc : List F

/-- Coefficients for the elements of the second group (groth16/src/lib.rs:58-91). -/
structure Coeffs2 (F : Type) where
  gen : F
  beta : F
  gamma : F
  delta : F
  b : List F

/-- The element of the first group with these coefficients (groth16/src/lib.rs:58-91). -/
def Coeffs1.apply (k : Coeffs1 F) (pk : Parameters G1 G2) (g1 : G1) : G1 :=
  k.gen • g1 + k.alpha • pk.vk.alpha_g1 + k.beta • pk.beta_g1 + k.delta • pk.delta_g1 +
    msm pk.a_query k.a + msm pk.b_g1_query k.b + msm pk.h_query k.h + msm pk.l_query k.l +
    msm pk.vk.gamma_abc_g1 k.abc

/-- The element of the second group with these coefficients (groth16/src/lib.rs:58-91). -/
def Coeffs2.apply (k : Coeffs2 F) (pk : Parameters G1 G2) (g2 : G2) : G2 :=
  k.gen • g2 + k.beta • pk.vk.beta_g2 + k.gamma • pk.vk.gamma_g2 + k.delta • pk.vk.delta_g2 +
    msm pk.b_g2_query k.b

end Zkp.Groth16
