/- Model of the multilinear helpers: /repo/spartan/src/polynomial.rs, and the same functions in
/repo/libra/src/evaluate.rs and /repo/hyrax/src/evaluate.rs.

`none` is a Rust panic. -/
import Verif.Model.Cs

namespace Zkp.Ml

variable {F : Type} [Field F]

/-- A constraint matrix: rows of (coefficient, variable) (spartan/src/r1cs.rs:19-21). -/
abbrev Rows (F : Type) := List (List (F × Index))

/-- spartan/src/polynomial.rs:15-21: one pass of the outer loop of `eval_eq`. The inner loop reads
cell `j < size` and writes cells `j` and `size + j`, which no other pass of it touches. -/
def evalEqStep (st : List F × Nat) (s : F) : List F × Nat :=
  (((st.1.take st.2).map fun e => (1 - s) * e) ++ ((st.1.take st.2).map fun e => s * e) ++
    st.1.drop (2 * st.2), 2 * st.2)

/-- spartan/src/polynomial.rs:8-24 `eval_eq`; libra/src/evaluate.rs:54-70; hyrax/src/evaluate.rs:61-77. -/
def evalEq (rx : List F) : List F :=
  (rx.reverse.foldl evalEqStep (List.replicate (2 ^ rx.length) 1, 1)).1

/-- spartan/src/polynomial.rs:26-32 `eval_eq_x_y`; libra/src/evaluate.rs:35-41; hyrax/src/evaluate.rs:52-58. -/
def evalEqXY (rx ry : List F) : Option F :=
  if rx.length ≠ ry.length then none
  else some ((List.zipWith (fun x y => (1 - x) * (1 - y) + x * y) rx ry).prod)

/-- spartan/src/polynomial.rs:47-53: the weight of position `i`, bit by bit. -/
def bitWeight (r : List F) (i : Nat) : F :=
  ((List.range r.length).map fun j =>
    if i.testBit (r.length - j - 1) then r.getD j 0 else 1 - r.getD j 0).prod

/-- spartan/src/polynomial.rs:40-58 `sparse_evaluate_value`: the zero entries are removed first, and the
positions are counted afterwards. -/
def sparseEvaluateValue [DecidableEq F] (value r : List F) : F :=
  (((value.filter fun v => v ≠ 0).zipIdx).map fun (v, i) => bitWeight r i * v).sum

/-- `Index::Aux(i) => i`, `Index::Input(i) => i + len/2` (spartan/src/polynomial.rs:73-76, 96-97, 114-115). -/
def col (half : Nat) : Index → Nat
  | .aux i => i
  | .input i => i + half

/-- spartan/src/polynomial.rs:60-82 `evaluate_mle`; a variable or row outside the tables panics. -/
def evaluateMle (m : Rows F) (rx ry : List F) : Option F :=
  let ex := evalEq rx
  let ey := evalEq ry
  (m.zipIdx.flatMap fun (row, i) => row.map fun t => (t, i)).foldlM (fun sum (t, i) => do
    let y ← ey[col (ey.length / 2) t.2]?
    let x ← ex[i]?
    some (sum + y * x * t.1)) 0

/-- spartan/src/polynomial.rs:84-101 `evaluate_matrix_vec`. -/
def evaluateMatrixVec (m : Rows F) (z : List F) : Option (List F) :=
  m.mapM fun row => row.foldlM (fun sum t => do
    let v ← z[col (z.length / 2) t.2]?
    some (sum + t.1 * v)) 0

/-- spartan/src/polynomial.rs:102-119 `evaluate_matrix_vec_col`. -/
def evaluateMatrixVecCol (m : Rows F) (coeffs : List F) (n : Nat) : Option (List F) :=
  (m.zipIdx.flatMap fun (row, i) => row.map fun t => (t, i)).foldlM (fun (ms : List F) (t, i) => do
    let c ← coeffs[i]?
    if col (n / 2) t.2 < ms.length then some (ms.modify (col (n / 2) t.2) (· + t.1 * c)) else none)
    (List.replicate n 0)

/-- `usize::is_power_of_two`.
spartan/src/polynomial.rs:123, 133, 142, libra/src/evaluate.rs:45, hyrax/src/evaluate.rs:103. -/
def isPow2 (n : Nat) : Bool := n == 2 ^ Nat.log2 n

/-- spartan/src/polynomial.rs:121-129 `combine_with_n` and 131-138 `combine_with_r`;
libra/src/evaluate.rs:43-51; hyrax/src/evaluate.rs:101-109. An odd last element is dropped. -/
def combineWithR (values : List F) (r : F) : Option (List F) :=
  let len := values.length / 2
  if isPow2 len then
    some ((List.range len).map fun i => r * values.getD (i + len) 0 + (1 - r) * values.getD i 0)
  else none

/-- spartan/src/polynomial.rs:140-147 `bound_poly_var_bot`: cell `i` is written after cells `2i`, `2i + 1`
are read, and no earlier pass has written them (except `0` by pass `0` itself). -/
def boundPolyVarBot (values : List F) (r : F) : Option (List F) :=
  let len := values.length / 2
  if isPow2 len then
    some ((List.range len).map fun i => r * values.getD (2 * i + 1) 0 + (1 - r) * values.getD (2 * i) 0)
  else none

/-- libra/src/evaluate.rs:72-76 and hyrax/src/evaluate.rs:111-115 `eval_value`; more values than the
table has entries panics. -/
def evalValue (value r : List F) : Option F :=
  let eq := evalEq r
  if value.length ≤ eq.length then some ((List.zipWith (· * ·) value eq).sum) else none

end Zkp.Ml
