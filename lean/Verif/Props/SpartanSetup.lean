/- C90: the parameters generated for a circuit are large enough and made of fresh points. -/
import Verif.Model.SpartanSetup
import Verif.Props.SpartanSnarkComplete

set_option linter.unusedSectionVars false

namespace Zkp.Spartan

open Zkp.Ml

variable {F G : Type}

/-- The points of a set of generators in the order in which they are drawn. -/
def MultiParams.points (p : MultiParams G) : List G := p.generators ++ [p.h]

/-- The points of commitment parameters; the second set shares its `h` with the first. -/
def PcParams.points (p : PcParams G) : List G := p.genN.points ++ p.gen1.generators

def SatParams.points (p : SatParams G) : List G := p.pc.points ++ p.gen3.points ++ p.gen4.points

def EvalsParams.points (p : EvalsParams G) : List G := p.ops.points ++ p.mem.points ++ p.derefs.points

/-- The draws `i, …, i + k - 1`. -/
def drawn (draw : Nat → G) (i k : Nat) : List G := (List.range k).map fun j => draw (i + j)

theorem drawn_add (draw : Nat → G) (i k l : Nat) : drawn draw i k ++ drawn draw (i + k) l = drawn draw i (k + l) := by
  simp only [drawn, List.range_add, List.map_append, List.map_map]
  congr 2
  funext j
  simp [Function.comp, Nat.add_assoc]

theorem drawn_one (draw : Nat → G) (i : Nat) : [draw i] = drawn draw i 1 := by simp [drawn]

/-- `p` consists of the draws from `i` on, and the next draw is `j`. -/
def Takes (draw : Nat → G) (i : Nat) (p : List G) (j : Nat) : Prop := ∃ k, p = drawn draw i k ∧ j = i + k

theorem Takes.append {draw : Nat → G} {i j l : Nat} {p q : List G} (h : Takes draw i p j) (h' : Takes draw j q l) :
    Takes draw i (p ++ q) l := by
  obtain ⟨k, rfl, rfl⟩ := h
  obtain ⟨k', rfl, rfl⟩ := h'
  exact ⟨k + k', drawn_add _ _ _ _, by omega⟩

theorem multi_takes (draw : Nat → G) (i n : Nat) : Takes draw i (multiNew draw i n).1.points (multiNew draw i n).2 := by
  refine ⟨n + 1, ?_, rfl⟩
  rw [← drawn_add, ← drawn_one]
  rfl

theorem pc_takes (draw : Nat → G) (i num : Nat) : Takes draw i (pcNew draw i num).1.points (pcNew draw i num).2 :=
  (multi_takes draw i _).append ⟨1, drawn_one _ _, rfl⟩

theorem sat_takes (draw : Nat → G) (i a b : Nat) : Takes draw i (satNew draw i a b).1.points (satNew draw i a b).2 :=
  ((pc_takes draw i _).append (multi_takes draw _ 3)).append (multi_takes draw _ 4)

theorem evals_takes (draw : Nat → G) (i a b : Nat) : Takes draw i (evalsNew draw i a b).1.points (evalsNew draw i a b).2 :=
  ((pc_takes draw i _).append (pc_takes draw _ _)).append (pc_takes draw _ _)

theorem snark_takes (draw : Nat → G) (a b c : Nat) :
    Takes draw 0 ((setupSnark draw a b c).1.1.points ++ (setupSnark draw a b c).1.2.points) (setupSnark draw a b c).2 :=
  (sat_takes draw 0 a b).append (evals_takes draw _ _ _)

theorem Takes.nodup {draw : Nat → G} (hd : Function.Injective draw) {i j : Nat} {p : List G} (h : Takes draw i p j) : p.Nodup := by
  obtain ⟨k, rfl, -⟩ := h
  exact List.nodup_range.map fun a b hab => by simpa using hd hab

theorem pow_half_mono {a b : Nat} (h : a ≤ b) : 2 ^ (a - a / 2) ≤ 2 ^ (b - b / 2) := Nat.pow_le_pow_right (by norm_num) (by omega)

theorem pc_canOpen (draw : Nat → G) (i num m : Nat) (h : m ≤ num) : CanOpen (pcNew draw i num).1 m := by
  refine ⟨rfl, ?_, by simp [pcNew]⟩
  simpa [pcNew, multiNew] using pow_half_mono h

variable [Field F] [DecidableEq F]

/-- A row of a matrix has at most one entry for each variable. -/
theorem row_entries (w n : Nat) (row : List (F × Index)) (h : ∀ t ∈ row, col w t.2 < n) :
    ((rowMap w row).filter fun e => e.2 ≠ 0).length ≤ n := by
  refine le_trans (List.length_filter_le _ _) ?_
  have hs := (rowMap_spec w row).1
  have hnd : ((rowMap w row).map Prod.fst).Nodup := by
    rw [List.Nodup, List.pairwise_map]
    exact hs.imp fun h => h.ne
  have hsub : ((rowMap w row).map Prod.fst) ⊆ List.range n := by
    intro k hk
    obtain ⟨e, he, rfl⟩ := List.mem_map.1 hk
    obtain ⟨t, ht, hc⟩ := rowMap_keys w row e he
    rw [List.mem_range, ← hc]
    exact h t ht
  have := (hnd.subperm hsub).length_le
  simpa using this

theorem matrix_entries (m : Rows F) (w n : Nat) (h : ∀ row ∈ m, ∀ t ∈ row, col w t.2 < n) :
    (switchMatrixToList m w).2.1.length ≤ m.length * n := by
  have key : ∀ (m : Rows F) (k : Nat), (∀ row ∈ m, ∀ t ∈ row, col w t.2 < n) → ((m.zipIdx k).flatMap fun (row, i) =>
      ((rowMap w row).filter fun e => e.2 ≠ 0).map fun e => (e.2, i, e.1)).length ≤ m.length * n := by
    intro m
    induction m with
    | nil => intro k _; simp
    | cons r m ih =>
      intro k h
      rw [List.zipIdx_cons, List.flatMap_cons, List.length_append, List.length_map, List.length_cons, Nat.add_mul, one_mul]
      have h1 := row_entries w n r (h r (by simp))
      have h2 := ih (k + 1) fun row hr => h row (by simp [hr])
      omega
  simpa [switchMatrixToList] using key m 0 h

/-- The number of entries of an instance is at most that of the cells of its matrices. -/
theorem entries_le (s : Inst F) (hf : s.Fits) : s.entries ≤ 2 ^ Nat.clog 2 s.numConstraints * (s.t * 2) := by
  have key : ∀ m : Rows F, Fits m (Nat.clog 2 s.numConstraints) (Nat.clog 2 s.t) →
      (switchMatrixToList m s.t).2.1.length ≤ 2 ^ Nat.clog 2 s.numConstraints * (s.t * 2) := by
    intro m ⟨h1, h2⟩
    rw [pow_succ, t_pow] at h2
    exact le_trans (matrix_entries m s.t _ h2) (Nat.mul_le_mul_right _ h1)
  exact max_le (max_le (key _ hf.1) (key _ hf.2.1)) (key _ hf.2.2)

theorem clog_padTo (n : Nat) : Nat.clog 2 (padTo n) = Nat.clog 2 n := Nat.clog_pow _ _ (by norm_num)

theorem clog_two_mul (n : Nat) (h : 0 < n) : Nat.clog 2 (n * 2) = Nat.clog 2 n + 1 := by
  rw [Nat.clog_of_two_le (by norm_num) (by omega), show (n * 2 + 2 - 1) / 2 = n by omega]

/-- C90: for every circuit and all draws, the parameters of both argument systems have shared blinding points as the protocols
need them, a generator for every coefficient of a row of each of the committed polynomials, and no draw is used twice. -/
theorem C90 (draw : Nat → G) (cs : CS F) (hc : cs.Closed) :
    let s := generateR1cs cs
    let sat := (setupSnark draw s.numAux s.numInputs s.numConstraints).1.1
    let evals := (setupSnark draw s.numAux s.numInputs s.numConstraints).1.2
    (setupNizk draw s.numAux s.numInputs).1 = sat ∧ sat.pc.gen1 = sat.gen1 ∧
    CanOpen sat.pc (Nat.clog 2 s.t) ∧ 2 ^ (Nat.clog 2 s.t) = s.t ∧
    CanOpen evals.ops (4 + Nat.clog 2 s.entries) ∧ CanOpen evals.mem (1 + s.memVars) ∧
    CanOpen evals.derefs (3 + Nat.clog 2 s.entries) ∧
    sat.gen1.generators.length = 1 ∧ sat.gen3.generators.length = 3 ∧ sat.gen4.generators.length = 4 ∧
    (Function.Injective draw → (sat.points ++ evals.points).Nodup) := by
  have hf := generate_fits cs hc
  have hP : padTo (generateR1cs cs).numConstraints = (generateR1cs cs).numConstraints := by
    show padTo (padTo _) = padTo _
    unfold padTo
    rw [Nat.clog_pow _ _ (by norm_num)]
  have hle := entries_le _ hf
  rw [show 2 ^ Nat.clog 2 (generateR1cs cs).numConstraints = _ from hP] at hle
  have ht : padTo (max (generateR1cs cs).numAux (generateR1cs cs).numInputs) = (generateR1cs cs).t := rfl
  have htp : 0 < (generateR1cs cs).t := by rw [← t_pow]; positivity
  refine ⟨rfl, rfl, ?_, t_pow _, ?_, ?_, ?_, by simp [setupSnark, satNew, pcNew], by simp [setupSnark, satNew, multiNew],
    by simp [setupSnark, satNew, multiNew], fun hd => (snark_takes draw _ _ _).nodup hd⟩
  · exact pc_canOpen draw _ _ _ (by rw [ht])
  · refine pc_canOpen draw _ _ _ ?_
    have := Nat.clog_mono_right 2 hle
    rw [ht]
    omega
  · refine pc_canOpen draw _ _ _ ?_
    rw [ht, clog_two_mul _ (by unfold padTo; positivity), clog_padTo, Inst.memVars, ← clog_two_mul _ htp]
    have h1 := Nat.clog_mono_right 2 (le_max_left ((generateR1cs cs).t * 2) (generateR1cs cs).numConstraints)
    have h2 := Nat.clog_mono_right 2 (le_max_right ((generateR1cs cs).t * 2) (generateR1cs cs).numConstraints)
    omega
  · refine pc_canOpen draw _ _ _ ?_
    have := Nat.clog_mono_right 2 hle
    rw [ht]
    omega

variable [AddCommGroup G] [DecidableEq G] [Module F G]

/-- From parameter generation to verification for the NIZK, with all inputs nonzero but for the last ones (see C45 and C79). -/
theorem C90_nizk (h2 : (2 : F) ≠ 0) (h3 : (3 : F) ≠ 0) (draw : Nat → G) (cs : CS F) (hc : cs.Closed) (hv : cs.Valid)
    (inputs : List F) (hin : cs.inputs = 1 :: inputs) (hz : ZerosLast inputs) (rand : SatRand F)
    (hr : rand.Shape (Nat.clog 2 (generateR1cs cs).numConstraints) (Nat.clog 2 (generateR1cs cs).t))
    (ch : Oracle F G) (r1csHash paramsHash : F) (hch : ∀ t, ch t ≠ 0) :
    ∃ proof, createNizk ch (generateNizk draw cs).1 (generateNizk draw cs).2 cs rand r1csHash paramsHash = .ok proof ∧
      verifyNizk ch (generateNizk draw cs).1 (generateNizk draw cs).2 inputs proof r1csHash paramsHash = .ok () := by
  obtain ⟨e, e1, ⟨e2, e3, e4⟩, -⟩ := C90 draw cs hc
  have hg : (generateNizk draw cs).1 = _ := e
  rw [hg]
  obtain ⟨h, h'⟩ := C79_partial h2 h3 _ e1 (by rw [← e1]; exact e2) (by rw [← e1]; exact e4) cs hc hv inputs hin hz e3 rand hr ch
    r1csHash paramsHash
  obtain ⟨proof, hp⟩ := h' hch
  exact ⟨proof, hp, h proof hp⟩

/-- From parameter generation to verification for the SNARK, with all inputs nonzero but for the last ones and a matrix with two entries (see C45
and C81). -/
theorem C90_snark (h2 : (2 : F) ≠ 0) (h3 : (3 : F) ≠ 0) (draw : Nat → G) (cs : CS F) (hc : cs.Closed) (hv : cs.Valid)
    (inputs : List F) (hin : cs.inputs = 1 :: inputs) (hz : ZerosLast inputs) (hn : 2 ≤ (generateR1cs cs).entries)
    (rand : SatRand F)
    (hr : rand.Shape (Nat.clog 2 (generateR1cs cs).numConstraints) (Nat.clog 2 (generateR1cs cs).t))
    (r1 r2 r3 : OpenRand F) (hr1 : r1.Enough (3 + Nat.clog 2 (generateR1cs cs).entries))
    (hr2 : r2.Enough (4 + Nat.clog 2 (generateR1cs cs).entries)) (hr3 : r3.Enough (1 + (generateR1cs cs).memVars))
    (ch : Oracle F G) (r1csHash paramsHash encodeHash : F) (hch : ∀ t, ch t ≠ 0) :
    ∃ sat evals s enc commit, generateSnark draw cs [] = .ok (((sat, evals), s, enc, commit), []) ∧
    ∃ proof, createSnark ch sat evals s cs enc commit rand r1 r2 r3 r1csHash paramsHash encodeHash = .ok proof ∧
      verifySnark ch sat evals s inputs proof commit r1csHash paramsHash encodeHash = .ok () := by
  obtain ⟨-, e1, ⟨e2, e3, e4⟩, -, e5, e6, e7, -⟩ := C90 draw cs hc
  obtain ⟨enc, commit, h0, h, h'⟩ := C81_partial h2 h3 _ e1 (by rw [← e1]; exact e2) (by rw [← e1]; exact e4) _ cs hc hv inputs
    hin hz hn e3 e5 e6 e7 rand hr r1 r2 r3 hr1 hr2 hr3 ch r1csHash paramsHash encodeHash
  obtain ⟨proof, hp⟩ := h' hch
  refine ⟨_, _, _, enc, commit, ?_, proof, hp, h proof hp⟩
  unfold generateSnark
  simp only []
  rw [bind_ok h0]
  rfl

/-- The circuit `x · (x + u) = out` of C81 with the draws `1, 2, 3, …` in place of points. -/
example : ∃ sat evals s enc commit, generateSnark (fun i => (i : F17) + 1) (Ex81.circuit 6 3 10) [] =
      .ok (((sat, evals), s, enc, commit), []) ∧
    ∃ proof, createSnark Ex79.ch sat evals s (Ex81.circuit 6 3 10) enc commit Ex79.rand Ex81.openRand Ex81.openRand Ex81.openRand
        1 2 3 = .ok proof ∧
      verifySnark Ex79.ch sat evals s [6, 10] proof commit 1 2 3 = .ok () :=
  C90_snark (by decide) (by decide) _ _ (Ex81.circuit_closed _ _ _) (Ex81.circuit_valid 6 3) [6, 10] rfl (.of_ne (by decide))
    (by rw [Ex81.entries_eq]) Ex79.rand (Ex81.rand_shape _ _ _) _ _ _
    (by rw [Ex81.entries_eq]; unfold OpenRand.Enough; decide) (by rw [Ex81.entries_eq]; unfold OpenRand.Enough; decide)
    (by rw [Ex81.memVars_eq]; unfold OpenRand.Enough; decide) Ex79.ch 1 2 3 Ex79.ch_ne

/-- The circuit `x · x = out` of C79. -/
example : ∃ proof, createNizk Ex79.ch (generateNizk (fun i => (i : F17) + 1) (Ex79.circuit 6 3 9)).1
      (generateNizk (fun i => (i : F17) + 1) (Ex79.circuit 6 3 9)).2 (Ex79.circuit 6 3 9) Ex79.rand 1 2 = .ok proof ∧
    verifyNizk Ex79.ch (generateNizk (fun i => (i : F17) + 1) (Ex79.circuit 6 3 9)).1
      (generateNizk (fun i => (i : F17) + 1) (Ex79.circuit 6 3 9)).2 [6, 9] proof 1 2 = .ok () :=
  C90_nizk (by decide) (by decide) _ _ (Ex79.circuit_closed _ _ _) (Ex79.circuit_valid 6 3) [6, 9] rfl (.of_ne (by decide)) Ex79.rand
    (Ex79.rand_shape _ _ _) Ex79.ch 1 2 Ex79.ch_ne

/-- Distinct draws, with the integers in place of points: 12 points for the NIZK of a circuit with four variables. -/
example : (setupNizk (fun i => (i : Int)) 1 3).1.points = [0, 1, 2, 3, 4, 5, 6, 7, 8, 9, 10, 11, 12] ∧
    Function.Injective fun i : Nat => (i : Int) :=
  ⟨by decide +kernel, fun a b h => by simpa using h⟩

end Zkp.Spartan
