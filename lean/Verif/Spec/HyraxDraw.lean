/- The random scalars of Hyrax's prover as finite lists, one entry for every scalar that is drawn. The model reads them
as functions of the position; here two draws are the same only if every scalar that is drawn is the same. -/
import Verif.Model.HyraxProver

namespace Zkp.Hx

variable {F : Type} [Field F]

/-- What one layer draws: `r_alpha_vec` and `r_alpha_eval_vec` (hyrax/src/zk_sumcheck_proof.rs:73-78), three blinding factors
and five scalars of the product proof (516-520), the masks and their blinding factors (522-567) and `rc` (585). -/
structure ZkDraw (F : Type) where
  alpha : List F
  alphaEval : List F
  x : F
  y : F
  z : F
  b1 : F
  b2 : F
  b3 : F
  b4 : F
  b5 : F
  d : List F
  rDelta : List F
  c : F

/-- How many scalars a layer draws for `2 ^ logN` instances if the layer below has `2 ^ logG` nodes. -/
def ZkDraw.Ok (logN : Nat) (d : ZkDraw F) (logG : Nat) : Prop :=
  d.alpha.length = logN + 2 * logG ∧ d.alphaEval.length = logN + 2 * logG ∧ d.d.length = 4 * logN + 6 * logG ∧
    d.rDelta.length = logN + 2 * logG

/-- The draw as the functions of the model. -/
def ZkDraw.rand (d : ZkDraw F) : ZkRand F :=
  ⟨fun i => d.alpha.getD i 0, fun i => d.alphaEval.getD i 0, d.x, d.y, d.z, d.b1, d.b2, d.b3, d.b4, d.b5,
    fun i => d.d.getD i 0, fun i => d.rDelta.getD i 0, d.c⟩

/-- Nothing is drawn past the last layer. -/
def noZk : ZkDraw F := ⟨[], [], 0, 0, 0, 0, 0, 0, 0, 0, [], [], 0⟩

/-- What the whole prover draws (hyrax/src/hyrax_proof.rs:29-223): a blinding factor for every row of the witness, the
layers from the output down, and two claims about the input layer. -/
structure Draw (F : Type) where
  witness : List F
  layers : List (ZkDraw F)
  in0 : InputRand F
  in1 : InputRand F

/-- The draw as the functions of the model. -/
def Draw.rand (d : Draw F) : HyraxRand F := ⟨d.witness, fun i => (d.layers.getD i noZk).rand, d.in0, d.in1⟩

/-- The sizes for `2 ^ logN` instances with `2 ^ k` witness values each and layers of the given sizes (as exponents, from
the one below the output down). -/
def Draw.Ok (d : Draw F) (logN k : Nat) (sizes : List Nat) : Prop :=
  d.witness.length = 2 ^ ((logN + k) / 2) ∧ List.Forall₂ (ZkDraw.Ok logN) d.layers sizes ∧
    d.in0.bullet.length = logN + k - (logN + k) / 2 ∧ d.in1.bullet.length = logN + k - (logN + k) / 2

end Zkp.Hx
