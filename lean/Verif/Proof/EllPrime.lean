/- The order of the prime-order group of curve25519 is prime (Lucas certificates). -/
import Verif.Proof.BnPrime

namespace Zkp.EllPrime

theorem q0 : Nat.Prime 1224481 :=
  lucas_list _ 13 [2, 2, 2, 2, 2, 3, 5, 2551] (by norm_num) (by norm_num) (by norm_num)
    (by intro q hq; fin_cases hq <;> norm_num) (by decide +kernel) (by decide +kernel)

theorem q1 : Nat.Prime 1257559732178653 :=
  lucas_list _ 2 [2, 2, 3, 7, 23, 531581, 1224481] (by norm_num) (by norm_num) (by norm_num)
    (by intro q hq; fin_cases hq <;> first | exact q0 | norm_num) (by decide +kernel) (by decide +kernel)

theorem q2 : Nat.Prime 4434155615661930479 :=
  lucas_list _ 17 [2, 41, 43, 1257559732178653] (by norm_num) (by norm_num) (by norm_num)
    (by intro q hq; fin_cases hq <;> first | exact q1 | norm_num) (by decide +kernel) (by decide +kernel)

theorem q3 : Nat.Prime 172054593956031949258510691 :=
  lucas_list _ 2 [2, 5, 1361, 2851, 4434155615661930479] (by norm_num) (by norm_num) (by norm_num)
    (by intro q hq; fin_cases hq <;> first | exact q2 | norm_num) (by decide +kernel) (by decide +kernel)

theorem q4 : Nat.Prime 292386187 :=
  lucas_list _ 2 [2, 3, 3, 3, 3, 307, 5879] (by norm_num) (by norm_num) (by norm_num)
    (by intro q hq; fin_cases hq <;> norm_num) (by decide +kernel) (by decide +kernel)

theorem q5 : Nat.Prime 213441916511 :=
  lucas_list _ 13 [2, 5, 73, 292386187] (by norm_num) (by norm_num) (by norm_num)
    (by intro q hq; fin_cases hq <;> first | exact q4 | norm_num) (by decide +kernel) (by decide +kernel)

theorem q6 : Nat.Prime 19757330305831588566944191468367130476339 :=
  lucas_list _ 2 [2, 269, 213441916511, 172054593956031949258510691] (by norm_num) (by norm_num) (by norm_num)
    (by intro q hq; fin_cases hq <;> first | exact q5 | exact q3 | norm_num) (by decide +kernel) (by decide +kernel)

theorem q7 : Nat.Prime 276602624281642239937218680557139826668747 :=
  lucas_list _ 2 [2, 7, 19757330305831588566944191468367130476339] (by norm_num) (by norm_num) (by norm_num)
    (by intro q hq; fin_cases hq <;> first | exact q6 | norm_num) (by decide +kernel) (by decide +kernel)

theorem q8 : Nat.Prime 14741173 :=
  lucas_list _ 2 [2, 2, 3, 3, 409477] (by norm_num) (by norm_num) (by norm_num)
    (by intro q hq; fin_cases hq <;> norm_num) (by decide +kernel) (by decide +kernel)

theorem q9 : Nat.Prime 58964693 :=
  lucas_list _ 2 [2, 2, 14741173] (by norm_num) (by norm_num) (by norm_num)
    (by intro q hq; fin_cases hq <;> first | exact q8 | norm_num) (by decide +kernel) (by decide +kernel)

theorem q10 : Nat.Prime 3044861653679985063343 :=
  lucas_list _ 5 [2, 3, 11, 30703, 82163, 132667, 137849] (by norm_num) (by norm_num) (by norm_num)
    (by intro q hq; fin_cases hq <;> norm_num) (by decide +kernel) (by decide +kernel)

theorem q11 : Nat.Prime 198211423230930754013084525763697 :=
  lucas_list _ 5 [2, 2, 2, 2, 3, 23, 58964693, 3044861653679985063343] (by norm_num) (by norm_num) (by norm_num)
    (by intro q hq; fin_cases hq <;> first | exact q9 | exact q10 | norm_num) (by decide +kernel) (by decide +kernel)

theorem ell_prime : Nat.Prime (2 ^ 252 + 27742317777372353535851937790883648493) :=
  lucas_list _ 2 [2, 2, 3, 11, 198211423230930754013084525763697, 276602624281642239937218680557139826668747] (by norm_num) (by norm_num) (by norm_num)
    (by intro q hq; fin_cases hq <;> first | exact q11 | exact q7 | norm_num) (by decide +kernel) (by decide +kernel)

end Zkp.EllPrime
