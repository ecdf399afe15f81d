/- What the SNARK verifier of Spartan has said before a challenge depends only on the earlier challenges. -/
import Verif.Proof.Causal
import Verif.Model.SpartanSnark

namespace Zkp.Sc

open Zkp.Spartan
open Zkp.Cp (bind_inv say_inv challenge_inv ensure_inv orPanic_inv pure_inv)

set_option linter.unusedSectionVars false
set_option linter.unusedSimpArgs false

variable {F : Type} [Field F] {G : Type} [AddCommGroup G] [Module F G] [DecidableEq F] [DecidableEq G]

theorem Causal.throw {α : Type} (e : Stop) : Causal (F := F) (G := G) fun _ => (MonadExcept.throw e : Vf F G α) := by
  intro n ch ch' tr b t b' t' _ h h'
  cases h

theorem Causal.cubicRounds (polys : List (List F)) (claim : F) :
    Causal (G := G) fun ch => Spartan.cubicRounds ch polys claim := by
  induction polys generalizing claim with
  | nil => exact Causal.pure _
  | cons p ps ih =>
    exact (Causal.say _).bind fun _ => (Causal.ensure _ _).bind fun _ => (Causal.challenge _).bind fun _ => (ih _).bind fun _ =>
      Causal.pure _

theorem Causal.cubic (polys : List (List F)) (n : Nat) (claim : F) :
    Causal (G := G) fun ch => cubicVerify ch polys n claim :=
  (Causal.ensure _ _).bind fun _ => Causal.cubicRounds _ _

theorem Causal.sayPairs (l1 l2 : String) (xs ys : List F) : Causal (G := G) fun _ => Spartan.sayPairs l1 l2 xs ys := by
  induction xs generalizing ys with
  | nil => cases ys <;> exact Causal.pure _
  | cons x xs ih =>
    cases ys with
    | nil => exact Causal.pure _
    | cons y ys => exact (Causal.say _).bind fun _ => (Causal.say _).bind fun _ => ih _

theorem Causal.sayDotp (coeffs : List F) (k : Nat) (xs ys zs : List F) :
    Causal (G := G) fun _ => Spartan.sayDotp coeffs k xs ys zs := by
  induction xs generalizing k ys zs with
  | nil => exact Causal.pure _
  | cons x xs ih =>
    cases ys with
    | nil => exact Causal.throw _
    | cons y ys =>
      cases zs with
      | nil => exact Causal.throw _
      | cons z zs =>
        exact (Causal.say _).bind fun _ => (Causal.say _).bind fun _ => (Causal.say _).bind fun _ => (Causal.orPanic _).bind fun _ =>
          (ih _ _ _).bind fun _ => Causal.pure _

theorem Causal.layers (proof : CircuitEvalProof F) (dotp : List F) (nprod last : Nat) (ls : List (LayerProof F)) (i : Nat)
    (claims cd rands : List F) : Causal (G := G) fun ch => layersVerify ch proof dotp nprod last ls i claims cd rands := by
  induction ls generalizing i claims cd rands with
  | nil => exact Causal.pure _
  | cons l ls ih =>
    refine (Causal.challenges _ _).bind fun _ => (Causal.cubic _ _ _).bind fun _ => (Causal.ensure _ _).bind fun _ =>
      (Causal.ensure _ _).bind fun _ => (Causal.sayPairs _ _ _ _).bind fun _ => (Causal.ensure _ _).bind fun _ => ?_
    by_cases h : i = last
    · simp only [if_pos h]
      exact (Causal.sayDotp _ _ _ _ _).bind fun _ => (Causal.ensure _ _).bind fun _ => (Causal.challenge _).bind fun _ =>
        (Causal.orPanic _).bind fun _ => ih _ _ _ _
    · simp only [if_neg h]
      exact (Causal.pure _).bind fun _ => (Causal.ensure _ _).bind fun _ => (Causal.challenge _).bind fun _ =>
        (Causal.pure _).bind fun _ => ih _ _ _ _

theorem Causal.circuit (proof : CircuitEvalProof F) (claims dotp : List F) (n : Nat) :
    Causal (G := G) fun ch => circuitEvalVerify ch proof claims dotp n :=
  (Causal.ensure _ _).bind fun _ => Causal.layers _ _ _ _ _ _ _ _ _

theorem Causal.memClaims (name : String) (c : MemClaims F) : Causal (G := G) fun _ => Spartan.memClaims name c :=
  (Causal.ensure _ _).bind fun _ => (Causal.say _).bind fun _ => (Causal.say _).bind fun _ => (Causal.say _).bind fun _ =>
    Causal.say _

theorem Causal.dotpClaims (xs ys zs : List F) : Causal (G := G) fun _ => Spartan.dotpClaims xs ys zs := by
  induction xs generalizing ys zs with
  | nil => exact Causal.pure _
  | cons x xs ih =>
    cases ys with
    | nil => exact Causal.pure _
    | cons y ys =>
      cases zs with
      | nil => exact Causal.pure _
      | cons z zs =>
        exact (Causal.ensure _ _).bind fun _ => (Causal.say _).bind fun _ => (Causal.say _).bind fun _ => (ih _ _).bind fun _ =>
          Causal.pure _

theorem Causal.product (proof : ProductLayerProof F) (n m : Nat) (evals : List F) :
    Causal (G := G) fun ch => productLayerVerify ch proof n m evals :=
  (Causal.say _).bind fun _ => (Causal.ensure _ _).bind fun _ => (Causal.memClaims _ _).bind fun _ =>
    (Causal.memClaims _ _).bind fun _ => (Causal.dotpClaims _ _ _).bind fun _ => (Causal.circuit _ _ _ _).bind fun _ =>
    (Causal.circuit _ _ _ _).bind fun _ => Causal.pure _

theorem Causal.fold (l1 l2 : String) (evals : List F) : Causal (G := G) fun ch => foldEvals ch l1 l2 evals := by
  refine (Causal.say _).bind fun _ => (Causal.challenges _ _).bind fun _ => (Causal.orPanic _).bind fun out => ?_
  match out with
  | [] => exact Causal.throw _
  | [e] => exact Causal.pure _
  | _ :: _ :: _ => exact Causal.throw _

theorem Causal.openFolded (params : PcParams G) (l : String) (cs rands : List F) (e : F) (commits : List G) (proof : DotProof F G) :
    Causal fun ch => Spartan.openFolded ch params l cs rands e commits proof :=
  (Causal.say _).bind fun _ => (Causal.inner _ _ _ _ _).bind fun _ => Causal.ensure _ _

theorem Causal.hash (params : EvalsParams G) (proof : HashLayerProof F G) (rx ry randsOps randsMem : List F) (g1 g2 : F)
    (row col : MemClaims F) (dotp : List F) (commit : EncodeCommit G) (derefs : List G) :
    Causal fun ch => hashLayerVerify ch params proof rx ry randsOps randsMem g1 g2 row col dotp commit derefs :=
  (Causal.say _).bind fun _ => (Causal.ensure _ _).bind fun _ => (Causal.ensure _ _).bind fun _ => (Causal.say _).bind fun _ =>
    (Causal.fold _ _ _).bind fun _ => (Causal.openFolded _ _ _ _ _ _ _).bind fun _ => (Causal.ensure _ _).bind fun _ =>
    (Causal.ensure _ _).bind fun _ => (Causal.fold _ _ _).bind fun _ => (Causal.openFolded _ _ _ _ _ _ _).bind fun _ =>
    (Causal.fold _ _ _).bind fun _ => (Causal.openFolded _ _ _ _ _ _ _).bind fun _ => (Causal.orPanic _).bind fun _ =>
    Causal.orPanic _

/-- The evaluation argument. -/
theorem Causal.sparse (params : EvalsParams G) (proof : EvalsProof F G) (commit : EncodeCommit G) (rx ry : List F)
    (evals : F × F × F) : Causal fun ch => sparseEvalVerify ch params proof commit rx ry evals :=
  (Causal.say _).bind fun _ => (Causal.ensure _ _).bind fun _ => (Causal.say _).bind fun _ => (Causal.challenge _).bind fun _ =>
    (Causal.challenge _).bind fun _ => (Causal.product _ _ _ _).bind fun _ => (Causal.ensure _ _).bind fun _ =>
    Causal.hash _ _ _ _ _ _ _ _ _ _ _ _ _

end Zkp.Sc
