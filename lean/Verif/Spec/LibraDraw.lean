/- The random scalars of Libra's hiding prover as finite lists, one entry for every scalar that is drawn. The model
reads them as functions of the position; here two draws are the same only if every scalar that is read is the same. -/
import Verif.Model.LibraZk

namespace Zkp.Lz

open Zkp.Sc Zkp.Hx

variable {F : Type} [Field F]

/-- What one layer draws: the rounds of the two sum-checks, three blinding factors, five scalars of the product proof
and one of the equality proof (libra/src/libra_zk_linear_gkr.rs:89-175, sumcheck.rs:186-426). -/
structure LayerDraw (F : Type) where
  one : List (RoundRand F)
  two : List (RoundRand F)
  x : F
  y : F
  z : F
  b0 : F
  b1 : F
  b2 : F
  b3 : F
  b4 : F
  eq : F

/-- One entry per round, with three masks each (a round polynomial has three coefficients). -/
def LayerDraw.Ok (d : LayerDraw F) (n : Nat) : Prop :=
  d.one.length = n ∧ d.two.length = n ∧ (∀ r ∈ d.one, r.d.length = 3) ∧ ∀ r ∈ d.two, r.d.length = 3

/-- Nothing is drawn past the last round. -/
def noRound : RoundRand F := ⟨0, 0, [0, 0, 0], 0, 0⟩

/-- The draw as the functions of the model. -/
def LayerDraw.rand (d : LayerDraw F) : LayerRand F :=
  ⟨fun i => d.one.getD i noRound, fun i => d.two.getD i noRound, d.x, d.y, d.z,
    fun i => [d.b0, d.b1, d.b2, d.b3, d.b4].getD i 0, d.eq⟩

/-- Nothing is drawn past the last layer. -/
def noLayer : LayerDraw F := ⟨[], [], 0, 0, 0, 0, 0, 0, 0, 0, 0⟩

/-- What the whole prover draws (libra/src/libra_zk_linear_gkr.rs:41-270): a blinding factor for every row of the
witness, the layers from the output down, and two claims about the input layer. -/
structure Draw (F : Type) where
  witness : List F
  layers : List (LayerDraw F)
  in0 : InputRand F
  in1 : InputRand F

/-- The draw as the functions of the model. -/
def Draw.rand (d : Draw F) : GkrRand F := ⟨d.witness, fun i => (d.layers.getD i noLayer).rand, d.in0, d.in1⟩

/-- The sizes that a circuit with `2 ^ k` witness values and layers of the given sizes (as exponents, from the one
below the output down) needs. -/
def Draw.Ok (d : Draw F) (k : Nat) (sizes : List Nat) : Prop :=
  d.witness.length = 2 ^ (k / 2) ∧ List.Forall₂ LayerDraw.Ok d.layers sizes ∧
    d.in0.bullet.length = k - k / 2 ∧ d.in1.bullet.length = k - k / 2

end Zkp.Lz
