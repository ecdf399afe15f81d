/- Model of /repo/bulletproofs/src: lib.rs, inner_product_proof.rs, arithmetic_circuit.rs.

`none` is a Rust panic (failed assert, index out of range, `unwrap` of `None`). -/
import Verif.Model.Cs
import Verif.Model.Group
import Verif.Model.Transcript
import Verif.Model.Groth16
import Mathlib.Data.Nat.Log

namespace Zkp.Bp

variable {F : Type} [Field F] {G : Type} [AddCommGroup G] [Module F G]

/-! ### lib.rs -/

/-- lib.rs:116-125 `inner_product` for vectors of equal length (different lengths panic; callers below
guard). -/
def innerProduct (a b : List F) : F := (List.zipWith (· * ·) a b).sum

/-- lib.rs:100-109 `hadamard_product` for vectors of equal length. -/
def hadamard (a b : List F) : List F := List.zipWith (· * ·) a b

/-- lib.rs:70-82 `vector_product`: row vector times the `n × m` matrix with diagonal `ms`. -/
def vectorProduct (v ms : List F) (m : Nat) : List F :=
  (List.range m).map fun col =>
    ((List.range v.length).map fun row => v.getD row 0 * (if row = col then ms.getD row 0 else 0)).sum

/-- A `BTreeMap<(u32, u32), F>`. -/
abbrev SMap (F : Type) := Nat × Nat → Option F

/-- lib.rs:56-67 `vector_map_product`. -/
def vectorMapProduct (v : List F) (ms : SMap F) (n : Nat) : List F :=
  (List.range n).map fun col =>
    ((List.range v.length).map fun row => v.getD row 0 * (ms (row, col)).getD 0).sum

/-- lib.rs:85-98 `vector_matrix_product_t`; `none` is the length panic. -/
def vectorMatrixProductT (v : List F) (m : List (List F)) : Option (List F) :=
  if m.all (fun row => row.length == v.length) then some (m.map fun row => innerProduct row v) else none

/-! ### inner_product_proof.rs -/

/-- inner_product_proof.rs:14-19 `Proof`. -/
structure IppProof (F G : Type) where
  L_vec : List G
  R_vec : List G
  a : F
  b : F

/-- inner_product_proof.rs:46-102: one pass of the `while` loop per unit of `k` (`n = 2^k`, halved in
every pass). -/
def ippLoop [DecidableEq F] (ch : Oracle F G) (u : G) : Nat → Transcript F G → List G → List G →
    List F → List F → Option (IppProof F G)
  | 0, _, _, _, a, b =>
    match a, b with
    | [a], [b] => some ⟨[], [], a, b⟩
    | _, _ => none
  | k + 1, tr, g, h, a, b =>
    let n := 2 ^ k
    if g.length < 2 * n ∨ h.length < 2 * n then none
    else
      let aL := a.take n
      let aR := a.drop n
      let bL := b.take n
      let bR := b.drop n
      let cL := innerProduct aL bR
      let cR := innerProduct aR bL
      let gL := g.take n
      let gR := g.drop n
      let hL := h.take n
      let hR := h.drop n
      let L := msm gR aL + msm hL bR + cL • u
      let R := msm gL aR + msm hR bL + cR • u
      let tr := tr ++ [.pt "L" L, .pt "R" R, .chal "x"]
      let x := ch tr
      if x = 0 then none
      else
        let g' := List.zipWith (fun l r => x⁻¹ • l + x • r) gL gR
        let h' := List.zipWith (fun l r => x • l + x⁻¹ • r) hL hR
        let a' := List.zipWith (fun l r => l * x + r * x⁻¹) aL aR
        let b' := List.zipWith (fun l r => l * x⁻¹ + r * x) bL bR
        (ippLoop ch u k tr g' h' a' b').map fun p => ⟨L :: p.L_vec, R :: p.R_vec, p.a, p.b⟩

/-- The common start of both transcripts (inner_product_proof.rs:35-40, 124-129). -/
def ippStart (n : Nat) (u P : G) (g h : List G) : Transcript F G :=
  [.u64 "n" n, .pt "u" u, .pt "P" P, .pts "g_vec" g, .pts "h_vec" h]

/-- inner_product_proof.rs:22-111 `prove` on vectors of length `n`; panics unless `n` is a power of
two and the lengths agree. -/
def ippProve [DecidableEq F] (ch : Oracle F G) (tr : Transcript F G) (g h : List G) (u P : G)
    (a b : List F) : Option (IppProof F G) :=
  let k := Nat.log2 a.length
  if a.length ≠ 2 ^ k ∨ b.length ≠ a.length then none
  else ippLoop ch u k (tr ++ ippStart a.length u P g h) g h a b

/-- inner_product_proof.rs:131-148: the challenges recomputed from `L`, `R`; `none` when one is zero. -/
def ippChallenges [DecidableEq F] (ch : Oracle F G) : Transcript F G → List G → List G → Option (List F)
  | tr, L :: Ls, R :: Rs =>
    let tr := tr ++ [.pt "L" L, .pt "R" R, .chal "x"]
    let x := ch tr
    if x = 0 then none else (ippChallenges ch tr Ls Rs).map (x :: ·)
  | _, _, _ => some []

/-- inner_product_proof.rs:150-161: the coefficients `s`. -/
def ippS (xs : List F) : List F :=
  let n := 2 ^ xs.length
  let allinv := xs.foldl (fun acc x => acc * x⁻¹) 1
  let xsq := xs.map fun x => x * x
  (List.range' 1 (n - 1)).foldl (fun s i =>
    let lg := Nat.log2 i
    let k := 2 ^ lg
    s ++ [s.getD (i - k) 0 * xsq.getD ((xs.length - 1) - lg) 0]) [allinv]

/-- inner_product_proof.rs:113-174 `verify`. -/
def ippVerify [DecidableEq F] [DecidableEq G] (ch : Oracle F G) (tr : Transcript F G) (g h : List G)
    (u P : G) (proof : IppProof F G) : Option Bool :=
  if proof.L_vec.length ≠ proof.R_vec.length then none
  else
    let tr := tr ++ ippStart (2 ^ proof.L_vec.length) u P g h
    (ippChallenges ch tr proof.L_vec proof.R_vec).map fun xs =>
      let s := ippS xs
      let invS := s.reverse
      let aS := s.map fun x => proof.a * x
      let bS := invS.map fun x => proof.b * x
      let lhs := msm g aS + msm h bS + (proof.a * proof.b) • u
      let rhs := msm proof.L_vec (xs.map fun x => x * x) +
        msm proof.R_vec (xs.map fun x => x⁻¹ * x⁻¹) + P
      lhs == rhs

/-! ### arithmetic_circuit.rs -/

/-- arithmetic_circuit.rs:226-250: one row of a dense matrix (`CL[i][index] = *coeff`). -/
def denseRow (numInputs numAssignments : Nat) (l : LC F) : List F :=
  l.foldl (fun row t => row.set (Groth16.pos numInputs t.1) t.2) (List.replicate numAssignments 0)

/-- arithmetic_circuit.rs:118-125 `R1csCircuit`. -/
structure R1csCircuit (F : Type) where
  CL : List (List F)
  CR : List (List F)
  CO : List (List F)
  CL_T : SMap F
  CR_T : SMap F
  CO_T : SMap F

/-- arithmetic_circuit.rs:127-151 `matrix_to_map` for one matrix (all rows have the length of the
first). `u32` casts of the indices are not modelled. -/
def matrixToMap [DecidableEq F] (m : List (List F)) : SMap F := fun p =>
  match (m[p.1]?).bind (·[p.2]?) with
  | some v => if v ≠ 0 then some v else none
  | none => none

/-- arithmetic_circuit.rs:220-259, 301: the matrices and maps of a circuit. -/
def toCircuit [DecidableEq F] (cs : CS F) : R1csCircuit F :=
  let n := cs.inputs.length + cs.aux.length
  let CL := cs.constraints.map fun k => denseRow cs.inputs.length n k.a
  let CR := cs.constraints.map fun k => denseRow cs.inputs.length n k.b
  let CO := cs.constraints.map fun k => denseRow cs.inputs.length n k.c
  ⟨CL, CR, CO, matrixToMap CL, matrixToMap CR, matrixToMap CO⟩

/-- arithmetic_circuit.rs:105-115 `Generators`. -/
structure Generators (G : Type) where
  g_vec_N : List G
  h_vec_N : List G
  g : G
  h : G
  u : G
  n : Nat
  N : Nat
  k : Nat
  n_w : Nat

/-- arithmetic_circuit.rs:163-183 `Proof`. -/
structure Proof (F G : Type) where
  A_I : G
  A_O : G
  A_W : G
  S : G
  T_2 : G
  T_3 : G
  T_5 : G
  T_6 : G
  T_7 : G
  T_8 : G
  T_9 : G
  T_10 : G
  mu : F
  tau_x : F
  l_x : List F
  r_x : List F
  t_x : F
  IPP : IppProof F G
  IPP_P : G

/-- The transcript up to the challenges `y`, `z` (arithmetic_circuit.rs:337-352, 386-389;
632-652). -/
def startTr (gens : Generators G) (circuit : R1csCircuit F) (s : List F) (A_I A_O A_W S : G) :
    Transcript F G :=
  [.u64 "n" gens.n, .u64 "N" gens.N, .u64 "k" gens.k, .u64 "n_w" gens.n_w,
   .pt "g" gens.g, .pt "h" gens.h, .pt "u" gens.u,
   .pts "g_vec_N" gens.g_vec_N, .pts "h_vec_N" gens.h_vec_N,
   .mat "cL" circuit.CL, .mat "cR" circuit.CR, .mat "cO" circuit.CO, .frs "s" s,
   .pt "A_I" A_I, .pt "A_O" A_O, .pt "A_W" A_W, .pt "S" S]

/-- The transcript messages between `z` and `x` (arithmetic_circuit.rs:764-771). -/
def tTr (p : Proof F G) : Transcript F G :=
  [.pt "T_2" p.T_2, .pt "T_3" p.T_3, .pt "T_5" p.T_5, .pt "T_6" p.T_6, .pt "T_7" p.T_7,
   .pt "T_8" p.T_8, .pt "T_9" p.T_9, .pt "T_10" p.T_10]

/-- The transcript messages between `x` and `x_1` (arithmetic_circuit.rs:788-792). -/
def xTr (p : Proof F G) : Transcript F G :=
  [.fr "t_x" p.t_x, .fr "tau_x" p.tau_x, .fr "mu" p.mu, .frs "l_x" p.l_x, .frs "r_x" p.r_x]

/-- The vectors both sides derive from the challenges `y`, `z` and the circuit
(arithmetic_circuit.rs:662-761 in the verifier). -/
structure Vectors (F : Type) where
  y_n : List F
  y_n_inv : List F
  z_Q : List F
  c : List F
  zQ_WL : List F
  zQ_WR : List F
  zQ_WO : List F
  zQ_neg_WV : List F
  ynInvZQWR : List F
  delta_yz : F

/-- arithmetic_circuit.rs:662-761 (verifier).  The power vectors are written in closed form. -/
def vectors [DecidableEq F] (gens : Generators G) (circuit : R1csCircuit F) (inputs : List F)
    (y z : F) : Option (Vectors F) :=
  let y_n := (List.range gens.N).map fun i => y ^ i
  let y_n_inv := y_n.map fun v => v⁻¹
  if y_n.any (· == 0) then none        -- `y_n[i].inverse().unwrap()`
  else if gens.n = 0 then none         -- `z_Q[gens.n - 1]`
  else
    let z_Q := (List.range gens.n).map fun i => z ^ (i + 1)
    let z_Q_neg := z_Q.map fun v => -1 * v
    let zn := z_Q.getD (gens.n - 1) 0
    let zn_sq := zn * zn
    let WL : List F := List.replicate gens.n 1
    let WR := List.replicate gens.n (zn * 1)
    let WO := List.replicate gens.n (zn_sq * 1)
    let entry := fun i j => (circuit.CL_T (i, j)).getD 0 + zn * (circuit.CR_T (i, j)).getD 0 +
      zn_sq * (circuit.CO_T (i, j)).getD 0
    let C1 := (List.range gens.n).map fun i => (List.range gens.k).map fun j => entry i j
    let WV : SMap F := fun p =>
      if p.1 < gens.n ∧ p.2 < gens.n_w then
        (if entry p.1 (p.2 + gens.k) ≠ 0 then some (entry p.1 (p.2 + gens.k)) else none)
      else none
    (vectorMatrixProductT inputs C1).map fun c =>
      let zQ_WL := vectorProduct z_Q WL gens.N
      let zQ_WR := vectorProduct z_Q WR gens.N
      let ynInvZQWR := hadamard y_n_inv zQ_WR
      { y_n, y_n_inv, z_Q, c, zQ_WL, zQ_WR
        zQ_WO := vectorProduct z_Q WO gens.N
        zQ_neg_WV := vectorMapProduct z_Q_neg WV gens.N
        ynInvZQWR
        delta_yz := innerProduct ynInvZQWR zQ_WL }

/-- arithmetic_circuit.rs:814-831: the check on `t_x`. -/
def checkT (gens : Generators G) (v : Vectors F) (p : Proof F G) (x : F) : Prop :=
  let xx := x * x
  let xxxx := xx * xx
  p.t_x • gens.g + p.tau_x • gens.h =
    (xxxx * (v.delta_yz + innerProduct v.z_Q v.c)) • gens.g + xx • p.T_2 + (xx * x) • p.T_3 +
      (xxxx * x) • p.T_5 + (xxxx * xx) • p.T_6 + (xxxx * (xx * x)) • p.T_7 +
      (xxxx * xxxx) • p.T_8 + (xxxx * (xxxx * x)) • p.T_9 + (xxxx * (xxxx * xx)) • p.T_10

/-- arithmetic_circuit.rs:779-786, 833-847: the check on `l_x`, `r_x`. -/
def checkP (gens : Generators G) (v : Vectors F) (p : Proof F G) (x : F) : Prop :=
  let xx := x * x
  let xxxx := xx * xx
  let h_vec_inv := List.zipWith (fun h yi => yi • h) gens.h_vec_N v.y_n_inv
  let wL := msm h_vec_inv v.zQ_WL
  let wR := msm gens.g_vec_N v.ynInvZQWR
  let wO := msm h_vec_inv v.zQ_WO
  let wV := msm h_vec_inv v.zQ_neg_WV
  xx • p.A_I + (xx * x) • p.A_O + xxxx • p.A_W + x • msm h_vec_inv (v.y_n.map fun v => -1 * v) +
      xx • wL + xx • wR + x • wO + wV + (xxxx * x) • p.S =
    p.mu • gens.h + msm gens.g_vec_N p.l_x + msm h_vec_inv p.r_x

instance [DecidableEq G] (gens : Generators G) (v : Vectors F) (p : Proof F G) (x : F) :
    Decidable (checkT gens v p x) := by unfold checkT; infer_instance

instance [DecidableEq G] (gens : Generators G) (v : Vectors F) (p : Proof F G) (x : F) :
    Decidable (checkP gens v p x) := by unfold checkP; infer_instance

/-- arithmetic_circuit.rs:614-848 `verify_proof`.  `none` is a panic. -/
def verifyProof [DecidableEq F] [DecidableEq G] (ch : Oracle F G) (gens : Generators G)
    (p : Proof F G) (circuit : R1csCircuit F) (publicInputs : List F) : Option Bool :=
  let inputs := 1 :: publicInputs
  let tr := startTr gens circuit inputs p.A_I p.A_O p.A_W p.S
  let tr := tr ++ [.chal "y"]
  let y := ch tr
  let tr := tr ++ [.chal "z"]
  let z := ch tr
  match vectors gens circuit inputs y z with
  | none => none
  | some v =>
    let tr := tr ++ tTr p ++ [.chal "x"]
    let x := ch tr
    if gens.h_vec_N.length < gens.N then none       -- `h_vec[i]`
    else
      let tr := tr ++ xTr p ++ [.chal "x_1"]
      let x_1 := ch tr
      let ux := x_1 • gens.u
      match ippVerify ch tr gens.g_vec_N gens.h_vec_N ux p.IPP_P p.IPP with
      | none => none
      | some false => some false
      | some true =>
        if checkT gens v p x then some (decide (checkP gens v p x))
        else none                                    -- `assert_eq!(checkT_lhs, checkT_rhs)`

/-! ### The prover -/

/-- arithmetic_circuit.rs:154-160 `Assignment`. -/
structure Assignment (F : Type) where
  aL : List F
  aR : List F
  aO : List F
  s : List F
  w : List F

/-- The values sampled by `prove` (arithmetic_circuit.rs:354-361, 494-501). -/
structure Rand (F : Type) where
  sL : List F
  sR : List F
  aI : F
  aO : F
  s : F
  gamma : F
  tau_2 : F
  tau_3 : F
  tau_5 : F
  tau_6 : F
  tau_7 : F
  tau_8 : F
  tau_9 : F
  tau_10 : F

/-- `next_power_of_two`. bulletproofs/src/arithmetic_circuit.rs:276, 335, 902. -/
def nextPow2 (n : Nat) : Nat := 2 ^ Nat.clog 2 n

/-- arithmetic_circuit.rs:261-271: the vectors `aL`, `aR`, `aO`; `none` is the length panic. -/
def toAssignment (circuit : R1csCircuit F) (inputs aux : List F) : Option (Assignment F) :=
  match vectorMatrixProductT (inputs ++ aux) circuit.CL, vectorMatrixProductT (inputs ++ aux) circuit.CR,
    vectorMatrixProductT (inputs ++ aux) circuit.CO with
  | some aL, some aR, some aO => some ⟨aL, aR, aO, inputs, aux⟩
  | _, _, _ => none

/-- lib.rs:190-209 `VecPoly5` (coefficient vectors). -/
structure VecPoly5 (F : Type) where
  c0 : List F
  c1 : List F
  c2 : List F
  c3 : List F
  c4 : List F
  c5 : List F

/-- lib.rs:211-222 `VecPoly5::eval`. -/
def VecPoly5.eval (p : VecPoly5 F) (x : F) : List F :=
  (List.range p.c0.length).map fun i =>
    p.c0.getD i 0 + x * (p.c1.getD i 0 + x * (p.c2.getD i 0 + x * (p.c3.getD i 0 +
      x * (p.c4.getD i 0 + x * p.c5.getD i 0))))

/-- lib.rs:255-265 `Poly10`. -/
structure Poly10 (F : Type) where
  t2 : F
  t3 : F
  t4 : F
  t5 : F
  t6 : F
  t7 : F
  t8 : F
  t9 : F
  t10 : F

/-- lib.rs:223-250 `special_inner_product`. -/
def specialInnerProduct (l r : VecPoly5 F) : Poly10 F where
  t2 := innerProduct l.c2 r.c0
  t3 := innerProduct l.c2 r.c1 + innerProduct l.c3 r.c0
  t4 := innerProduct l.c2 r.c2 + innerProduct l.c3 r.c1 + innerProduct l.c4 r.c0
  t5 := innerProduct l.c3 r.c2 + innerProduct l.c4 r.c1 + innerProduct l.c5 r.c0
  t6 := innerProduct l.c4 r.c2 + innerProduct l.c5 r.c1
  t7 := innerProduct l.c2 r.c5 + innerProduct l.c5 r.c2
  t8 := innerProduct l.c3 r.c5
  t9 := innerProduct l.c4 r.c5
  t10 := innerProduct l.c5 r.c5

/-- lib.rs:37-53 `vector_matrix_product` for a matrix with `n` columns. -/
def vectorMatrixProduct (v : List F) (m : List (List F)) (n : Nat) : List F :=
  (List.range n).map fun col =>
    ((List.range v.length).map fun row => v.getD row 0 * (m.getD row []).getD col 0).sum

/-- arithmetic_circuit.rs:399-489: the prover's polynomials `l(X)`, `r(X)`; `none` if a power of `y` is
zero or there are no constraints. -/
def proverPolys [DecidableEq F] (circuit : R1csCircuit F) (input : Assignment F) (rnd : Rand F)
    (N : Nat) (y z : F) : Option (VecPoly5 F × VecPoly5 F) :=
  let n := input.aL.length
  let k := input.s.length
  let n_w := input.w.length
  let y_n := (List.range N).map fun i => y ^ i
  let y_n_inv := y_n.map fun v => v⁻¹
  if y_n.any (· == 0) then none
  else if n = 0 then none
  else
    let z_Q := (List.range n).map fun i => z ^ (i + 1)
    let zn := z_Q.getD (n - 1) 0
    let zn_sq := zn * zn
    let diag := fun (v : F) => (List.range n).map fun i => (List.range N).map fun j => if i = j then v else 0
    let entry := fun i j => (circuit.CL.getD i []).getD j 0 + zn * (circuit.CR.getD i []).getD j 0 +
      zn_sq * (circuit.CO.getD i []).getD j 0
    let WV := (List.range n).map fun i => (List.range N).map fun j =>
      if j < n_w then entry i (j + k) else 0
    let zQ_WL := vectorMatrixProduct z_Q (diag 1) N
    let zQ_WR := vectorMatrixProduct z_Q (diag (zn * 1)) N
    let zQ_WO := vectorMatrixProduct z_Q (diag (zn_sq * 1)) N
    let zQ_WV := vectorMatrixProduct z_Q WV N
    let ynInvZQWR := hadamard y_n_inv zQ_WR
    let zeros := List.replicate N (0 : F)
    let at_ := fun (l : List F) (i : Nat) => l.getD i 0     -- padding with zeros (399-409)
    let tab := fun (f : Nat → F) => (List.range N).map f
    let l : VecPoly5 F := {
      c0 := zeros
      c1 := zeros
      c2 := tab fun i => at_ input.aL i + at_ ynInvZQWR i
      c3 := tab fun i => at_ input.aO i
      c4 := tab fun i => at_ input.w i
      c5 := tab fun i => at_ rnd.sL i }
    let r : VecPoly5 F := {
      c0 := tab fun i => -(at_ zQ_WV i)
      c1 := tab fun i => -(at_ y_n i) + at_ zQ_WO i
      c2 := tab fun i => at_ y_n i * at_ input.aR i + at_ zQ_WL i
      c3 := zeros
      c4 := zeros
      c5 := tab fun i => at_ y_n i * at_ rnd.sR i }
    some (l, r)

/-- arithmetic_circuit.rs:305-612 `prove`.  `none` is a panic (index out of range in the slices of the
generators, zero challenges, or the inner-product prover). -/
def prove [DecidableEq F] (ch : Oracle F G) (gens : Generators G) (circuit : R1csCircuit F)
    (input : Assignment F) (rnd : Rand F) : Option (Proof F G) :=
  let n := input.aL.length
  let n_w := input.w.length
  let n_max := max n n_w
  let N := nextPow2 n_max
  if n ≠ input.aR.length ∨ n ≠ input.aO.length then none
  else if gens.g_vec_N.length < n_max ∨ gens.h_vec_N.length < n_max then none
  else
    let A_I := rnd.aI • gens.h + msm (gens.g_vec_N.take n) input.aL + msm (gens.h_vec_N.take n) input.aR
    let A_O := rnd.aO • gens.h + msm (gens.g_vec_N.take n) input.aO
    let A_W := rnd.gamma • gens.h + msm (gens.g_vec_N.take n_w) input.w
    let S := rnd.s • gens.h + msm (gens.g_vec_N.take n_max) rnd.sL + msm (gens.h_vec_N.take n_max) rnd.sR
    let tr : Transcript F G := startTr { gens with n := n, N := N } circuit input.s A_I A_O A_W S
    let tr := tr ++ [.chal "y"]
    let y := ch tr
    let tr := tr ++ [.chal "z"]
    let z := ch tr
    match proverPolys circuit input rnd N y z with
    | none => none
    | some (l, r) =>
      let t := specialInnerProduct l r
      let com := fun (a b : F) => a • gens.g + b • gens.h
      let p0 : Proof F G := {
        A_I, A_O, A_W, S
        T_2 := com t.t2 rnd.tau_2
        T_3 := com t.t3 rnd.tau_3
        T_5 := com t.t5 rnd.tau_5
        T_6 := com t.t6 rnd.tau_6
        T_7 := com t.t7 rnd.tau_7
        T_8 := com t.t8 rnd.tau_8
        T_9 := com t.t9 rnd.tau_9
        T_10 := com t.t10 rnd.tau_10
        mu := 0
        tau_x := 0
        l_x := []
        r_x := []
        t_x := 0
        IPP := ⟨[], [], 0, 0⟩
        IPP_P := 0 }
      let tr := tr ++ tTr p0 ++ [.chal "x"]
      let x := ch tr
      let l_x := l.eval x
      let r_x := r.eval x
      let t_x := innerProduct l_x r_x
      let xx := x * x
      let xxxx := xx * xx
      let tau_x := rnd.tau_2 * xx + rnd.tau_3 * (xx * x) + rnd.tau_5 * (xxxx * x) +
        rnd.tau_6 * (xxxx * xx) + rnd.tau_7 * (xxxx * (xx * x)) + rnd.tau_8 * (xxxx * xxxx) +
        rnd.tau_9 * (xxxx * (xxxx * x)) + rnd.tau_10 * (xxxx * (xxxx * xx))
      let mu := rnd.aI * xx + rnd.aO * (xx * x) + rnd.gamma * xxxx + rnd.s * (xxxx * x)
      let p1 := { p0 with mu := mu, tau_x := tau_x, l_x := l_x, r_x := r_x, t_x := t_x }
      let tr := tr ++ xTr p1 ++ [.chal "x_1"]
      let x_1 := ch tr
      let ux := x_1 • gens.u
      let IPP_P := msm gens.g_vec_N l_x + msm gens.h_vec_N r_x + t_x • ux
      (ippProve ch tr gens.g_vec_N gens.h_vec_N ux IPP_P l_x r_x).map fun ipp =>
        { p1 with IPP := ipp, IPP_P := IPP_P }

/-- arithmetic_circuit.rs:187-302 `create_random_proof` for the constraint system `cs` left by the
circuit; the generators are the sampled points. -/
def createProof [DecidableEq F] (ch : Oracle F G) (cs : CS F) (g_vec_N h_vec_N : List G) (g h u : G)
    (rnd : Rand F) : Option (Generators G × R1csCircuit F × Proof F G) :=
  if Groth16.inRange cs = false then none
  else
    let circuit := toCircuit cs
    match toAssignment circuit cs.inputs cs.aux with
    | none => none
    | some input =>
      let gens : Generators G := {
        g_vec_N, h_vec_N, g, h, u
        n := cs.constraints.length
        N := nextPow2 (max input.aL.length input.w.length)
        k := input.s.length
        n_w := input.w.length }
      (prove ch gens circuit input rnd).map fun p => (gens, circuit, p)

end Zkp.Bp
