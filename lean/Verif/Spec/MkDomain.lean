/- What is assumed of `GeneralEvaluationDomain::new` (external crate `ark_poly`): see DESIGN.md. -/
import Verif.Model.Domain

namespace Zkp

/-- `mk n` is the smallest power-of-two domain with at least `n` elements, and smaller domains are
subgroups of larger ones with matching generators. -/
structure MkOk {F : Type} [Field F] (mk : Nat → Option (Domain F)) : Prop where
  valid : ∀ {n D}, mk n = some D → D.Valid
  ge : ∀ {n D}, mk n = some D → n ≤ D.size
  pow : ∀ {n D}, mk n = some D → ∃ k, D.size = 2 ^ k
  least : ∀ {n D}, mk n = some D → ∀ k, n ≤ 2 ^ k → D.size ≤ 2 ^ k
  sub : ∀ {n m D E}, mk n = some D → mk m = some E → D.size ≤ E.size → D.ω = E.ω ^ (E.size / D.size)

end Zkp
