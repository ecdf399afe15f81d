/- Spartan's evaluation argument: the steps of prover and verifier put together. -/
import Verif.Proof.SpartanSnark
import Verif.Props.SpartanTimestamps

namespace Zkp.Spartan

open Zkp.Ml Zkp.Sc Zkp.Cp

set_option linter.unusedSectionVars false
set_option linter.unusedSimpArgs false

variable {F : Type} [Field F] {G : Type} [AddCommGroup G] [Module F G] [DecidableEq F] [DecidableEq G]

/-! ### Hash lists -/

/-- The input list of a product circuit: fingerprints minus `g2`. -/
def hashList (g1 g2 : F) (a v t : List F) : List F := ((a.zip (v.zip t)).map (cellHash g1)).map fun x => x - g2

theorem hashList_length (g1 g2 : F) (a v t : List F) (n : Nat) (ha : a.length = n) (hv : v.length = n) (ht : t.length = n) :
    (hashList g1 g2 a v t).length = n := by simp [hashList, ha, hv, ht]

theorem mle_hashList (g1 g2 : F) (a v t r : List F) (ha : a.length = 2 ^ r.length) (hv : v.length = 2 ^ r.length)
    (ht : t.length = 2 ^ r.length) :
    mle (hashList g1 g2 a v t) r = readHash g1 g2 (mle a r) (mle v r) (mle t r) := by
  have e : ∀ i ∈ Finset.range (2 ^ r.length), (hashList g1 g2 a v t).getD i 0 * eqWeight r i =
      (a.getD i 0 * eqWeight r i) * g1 ^ 2 + (v.getD i 0 * eqWeight r i) * g1 + t.getD i 0 * eqWeight r i -
        g2 * eqWeight r i := by
    intro i hi
    have hi := Finset.mem_range.1 hi
    rw [List.getD_eq_getElem _ _ (by rw [hashList_length g1 g2 a v t _ ha hv ht]; exact hi),
      List.getD_eq_getElem _ _ (by omega), List.getD_eq_getElem _ _ (by omega), List.getD_eq_getElem _ _ (by omega)]
    simp only [hashList, List.getElem_map, List.getElem_zip, cellHash]
    ring
  unfold mle
  rw [Finset.sum_congr rfl e, Finset.sum_sub_distrib, Finset.sum_add_distrib, Finset.sum_add_distrib, ← Finset.sum_mul,
    ← Finset.sum_mul, ← Finset.mul_sum, eqWeight_sum]
  simp [readHash]

theorem mle_zeros (n : Nat) (r : List F) : mle (List.replicate n (0 : F)) r = 0 := by
  have := mle_pad ([] : List F) r n
  rw [List.nil_append] at this
  rw [this]
  simp [mle]

theorem mle_add_one (v r : List F) (hv : v.length = 2 ^ r.length) : mle (v.map (· + 1)) r = mle v r + 1 := by
  have h1 := eqWeight_sum r
  rw [show mle v r + 1 = mle v r + ∑ i ∈ Finset.range (2 ^ r.length), eqWeight r i by rw [h1]]
  unfold mle
  rw [← Finset.sum_add_distrib]
  refine Finset.sum_congr rfl fun i hi => ?_
  have hi := Finset.mem_range.1 hi
  rw [List.getD_eq_getElem _ _ (by simpa [hv] using hi), List.getD_eq_getElem _ _ (by omega), List.getElem_map]
  ring

theorem mle_positions' (n : Nat) (r : List F) (h : n = 2 ^ r.length) :
    mle ((List.range n).map fun (i : Nat) => (i : F)) r = addrEval r := by
  rw [mle_range _ _ _ h, mle_positions]
  rfl

/-- The triples that `memory_checking` hashes: addresses, read times, values. -/
def triples (lists readTs es : List (List F)) : List ((List F × List F) × List F) := (lists.zip readTs).zip es

def readList (g1 g2 : F) (x : (List F × List F) × List F) : List F := hashList g1 g2 x.1.1 x.2 x.1.2

def writeList (g1 g2 : F) (x : (List F × List F) × List F) : List F := hashList g1 g2 x.1.1 x.2 (x.1.2.map (· + 1))

def initList (g1 g2 : F) (mem : List F) : List F :=
  hashList g1 g2 ((List.range mem.length).map fun (i : Nat) => (i : F)) mem (List.replicate mem.length 0)

def auditList (g1 g2 : F) (mem auditTs : List F) : List F :=
  hashList g1 g2 ((List.range mem.length).map fun (i : Nat) => (i : F)) mem auditTs

theorem mapM_mem {α β : Type} {f : α → Option β} {l : List α} {r : List β} (h : l.mapM f = some r) :
    ∀ x ∈ l, ∃ y, f x = some y := by
  induction l generalizing r with
  | nil => simp
  | cons a l ih =>
    rw [List.mapM_cons] at h
    simp only [Option.bind_eq_bind, Option.bind_eq_some_iff] at h
    obtain ⟨y, hy, r', hr', _⟩ := h
    intro x hx
    rcases List.mem_cons.1 hx with rfl | hx
    · exact ⟨y, hy⟩
    · exact ih hr' x hx

theorem mapM_out {α β : Type} {f : α → Option β} {l : List α} {r : List β} (h : l.mapM f = some r) :
    r.length = l.length ∧ ∀ y ∈ r, ∃ x ∈ l, f x = some y := by
  induction l generalizing r with
  | nil => simp at h; subst h; simp
  | cons a l ih =>
    rw [List.mapM_cons] at h
    simp only [Option.bind_eq_bind, Option.bind_eq_some_iff, Option.pure_def, Option.some.injEq] at h
    obtain ⟨y, hy, r', hr', rfl⟩ := h
    obtain ⟨h1, h2⟩ := ih hr'
    refine ⟨by simp [h1], ?_⟩
    intro z hz
    rcases List.mem_cons.1 hz with rfl | hz
    · exact ⟨a, by simp, hy⟩
    · obtain ⟨x, hx, e⟩ := h2 z hz
      exact ⟨x, by simp [hx], e⟩

/-- What `memory_checking` returns: the product circuits of the hash lists. -/
theorem memoryChecking_inv (lists readTs es : List (List F)) (mem auditTs : List F) (g1 g2 : F) (L : MemoryLayer F)
    (h3 : auditTs.length = mem.length)
    (hall : ∀ x ∈ triples lists readTs es, x.1.2.length = x.1.1.length ∧ x.2.length = x.1.1.length)
    (h : memoryChecking lists mem readTs auditTs es g1 g2 = some L) :
    L.initProd = constructProductCircuit (initList g1 g2 mem) ∧
    L.readProd = ((triples lists readTs es).map (readList g1 g2)).map constructProductCircuit ∧
    L.writeProd = ((triples lists readTs es).map (writeList g1 g2)).map constructProductCircuit ∧
    L.auditProd = constructProductCircuit (auditList g1 g2 mem auditTs) ∧
    (∀ x ∈ triples lists readTs es, 2 ≤ x.1.1.length) ∧ 2 ≤ mem.length := by
  unfold memoryChecking at h
  unfold triples at hall ⊢
  split_ifs at h with hc
  simp only [] at h
  rw [circuitHash_cells _ _ _ _ (by simp) (by simp), circuitHash_cells _ _ _ _ (by simp) (by simp [h3]),
    mapM_some _ (fun x => (x.1.1.zip (x.2.zip x.1.2)).map (cellHash g1)) _
      (fun x hx => circuitHash_cells _ _ _ _ (hall x hx).2 (hall x hx).1),
    mapM_some _ (fun x => (x.1.1.zip (x.2.zip (x.1.2.map (· + 1)))).map (cellHash g1)) _
      (fun x hx => circuitHash_cells _ _ _ _ (hall x hx).2 (by simpa using (hall x hx).1))] at h
  simp only [Option.bind_eq_bind, Option.bind_some, Option.bind_eq_some_iff] at h
  obtain ⟨_, hinit, rd, hrd, _, _, _, _, h⟩ := h
  split_ifs at h
  obtain rfl := Option.some.inj h
  simp only [List.map_map]
  refine ⟨rfl, rfl, rfl, rfl, ?_, ?_⟩
  · intro x hx
    by_contra hlt
    rw [List.mapM_map] at hrd
    have hn : (evaluateProductCircuit ∘ hashCircuit g2) ((x.1.1.zip (x.2.zip x.1.2)).map (cellHash g1)) = none := by
      apply C51_violated
      simp only [List.length_map, List.length_zip]
      omega
    obtain ⟨y, hy⟩ := mapM_mem hrd _ (List.mem_map.2 ⟨x, hx, rfl⟩)
    rw [hn] at hy
    cases hy
  · by_contra hlt
    rw [show evaluateProductCircuit (hashCircuit g2 _) = none from C51_violated _ (by
      simp only [List.length_map, List.length_zip, List.length_range, List.length_replicate]; omega)] at hinit
    cases hinit

theorem claimsOf_eq (L : MemoryLayer F) (init audit : List F) (reads writes : List (List F))
    (e1 : L.initProd = constructProductCircuit init) (e2 : L.readProd = reads.map constructProductCircuit)
    (e3 : L.writeProd = writes.map constructProductCircuit) (e4 : L.auditProd = constructProductCircuit audit)
    (h1 : 2 ≤ init.length) (h2 : ∀ l ∈ reads, 2 ≤ l.length) (h3 : ∀ l ∈ writes, 2 ≤ l.length) (h4 : 2 ≤ audit.length) :
    claimsOf L = some ⟨init.prod, reads.map List.prod, writes.map List.prod, audit.prod⟩ := by
  unfold claimsOf
  rw [e1, e2, e3, e4, C51_partial _ h1, C51_partial _ h4, List.mapM_map, List.mapM_map,
    mapM_some (evaluateProductCircuit ∘ constructProductCircuit) List.prod reads (fun l hl => C51_partial l (h2 l hl)),
    mapM_some (evaluateProductCircuit ∘ constructProductCircuit) List.prod writes (fun l hl => C51_partial l (h3 l hl))]
  rfl

/-! ### Steps of the verifier -/

theorem hashVerify_of (ch : Oracle F G) (params : EvalsParams G) (proof : HashLayerProof F G) (rx ry randsOps randsMem : List F)
    (g1 g2 : F) (row col : MemClaims F) (dotp : List F) (commit : EncodeCommit G) (derefs : List G)
    (hd : dotp.length = 9) (hr3 : proof.derefRow.length = 3) (hc3 : proof.derefCol.length = 3) (hv3 : proof.vals.length = 3)
    (hdotp : ∀ i < 3, dotp[i * 3]? = proof.derefRow[i]? ∧ dotp[i * 3 + 1]? = proof.derefCol[i]? ∧
      dotp[i * 3 + 2]? = proof.vals[i]?)
    (cs1 cs2 cs3 : List F) (e1 e2 e3 : F) (tr tr1 tr2 tr3 tr4 tr5 tr6 : Transcript F G)
    (f1 : foldEvals ch "evals_ops_val" "challenge_combine_n_to_one" (proof.derefRow ++ proof.derefCol)
      ((tr ++ [.frs "protocol-name: Sparse polynomial hash layer proof" []]) ++
        [.frs "protocol-name: Derefs evaluation proof" []]) = .ok ((cs1, e1), tr1))
    (o1 : openFolded ch params.derefs "joint_claim_eval" cs1 randsOps e1 derefs proof.derefs tr1 = .ok ((), tr2))
    (f2 : foldEvals ch "claim_evals_ops" "challenge_combine_n_to_one"
      (proof.row.1 ++ proof.row.2.1 ++ proof.col.1 ++ proof.col.2.1 ++ proof.vals) tr2 = .ok ((cs2, e2), tr3))
    (o2 : openFolded ch params.ops "joint_claim_eval_ops" cs2 randsOps e2 commit.ops proof.ops tr3 = .ok ((), tr4))
    (f3 : foldEvals ch "claim_evals_mem" "challenge_combine_two_to_one" [proof.row.2.2, proof.col.2.2] tr4 =
      .ok ((cs3, e3), tr5))
    (o3 : openFolded ch params.mem "joint_claim_eval_mem" cs3 randsMem e3 commit.mem proof.mem tr5 = .ok ((), tr6))
    (b1 : behindVerify randsMem row rx proof.derefRow proof.row.1 proof.row.2.1 proof.row.2.2 g1 g2 = some ())
    (b2 : behindVerify randsMem col ry proof.derefCol proof.col.1 proof.col.2.1 proof.col.2.2 g1 g2 = some ()) :
    hashLayerVerify ch params proof rx ry randsOps randsMem g1 g2 row col dotp commit derefs tr = .ok ((), tr6) := by
  have h : Runs (hashLayerVerify ch params proof rx ry randsOps randsMem g1 g2 row col dotp commit derefs) tr
      fun _ t => t = tr6 := by
    unfold hashLayerVerify
    refine Runs.say.bind fun _ _ e => ?_
    subst e
    refine (Runs.ensure (by simp [hd])).bind fun _ tr e => ?_
    subst e
    refine (Runs.ensure (by simp [hr3, hc3])).bind fun _ tr e => ?_
    subst e
    refine Runs.say.bind fun _ _ e => ?_
    subst e
    refine Runs.bind (P := fun a t => a = (cs1, e1) ∧ t = tr1) ⟨_, _, f1, rfl, rfl⟩ fun a tr1 e => ?_
    obtain ⟨rfl, rfl⟩ := e
    refine Runs.bind (P := fun _ t => t = tr2) ⟨_, _, o1, rfl⟩ fun a tr2 e => ?_
    subst e
    refine (Runs.ensure (by simp [hv3])).bind fun _ tr2 e => ?_
    subst e
    refine (Runs.ensure (by
      simp only [List.all_eq_true, List.mem_range, decide_eq_true_eq]
      exact hdotp)).bind fun _ tr2 e => ?_
    subst e
    refine Runs.bind (P := fun a t => a = (cs2, e2) ∧ t = tr3) ⟨_, _, f2, rfl, rfl⟩ fun a tr3 e => ?_
    obtain ⟨rfl, rfl⟩ := e
    refine Runs.bind (P := fun _ t => t = tr4) ⟨_, _, o2, rfl⟩ fun a tr4 e => ?_
    subst e
    refine Runs.bind (P := fun a t => a = (cs3, e3) ∧ t = tr5) ⟨_, _, f3, rfl, rfl⟩ fun a tr5 e => ?_
    obtain ⟨rfl, rfl⟩ := e
    refine Runs.bind (P := fun _ t => t = tr6) ⟨_, _, o3, rfl⟩ fun a tr6 e => ?_
    subst e
    refine (Runs.orPanic b1).bind fun _ tr6 e => ?_
    obtain ⟨rfl, rfl⟩ := e
    exact (Runs.orPanic b2).mono fun _ _ e => e.2
  obtain ⟨_, t, e, rfl⟩ := h
  exact e

theorem memClaims_ok (name : String) (c : MemClaims F) (h : c.init * c.write.prod = c.read.prod * c.audit)
    (tr : Transcript F G) : ∃ tr', memClaims name c tr = .ok ((), tr') := by
  have : Runs (memClaims (G := G) name c) tr fun _ _ => True := by
    unfold memClaims
    exact (Runs.ensure (by simpa using h)).bind fun _ _ _ => Runs.say.bind fun _ _ _ => Runs.say.bind fun _ _ _ =>
      Runs.say.bind fun _ _ _ => Runs.say.mono fun _ _ _ => trivial
  obtain ⟨_, t, e, _⟩ := this
  exact ⟨t, e⟩

theorem dotpClaims_ok (l r e : List F) (hl : r.length = l.length) (he : e.length = l.length)
    (h : ∀ i < l.length, l.getD i 0 + r.getD i 0 = e.getD i 0) (tr : Transcript F G) :
    ∃ tr', dotpClaims l r e tr = .ok ((l.zip r).flatMap fun p => [p.1, p.2], tr') := by
  induction l generalizing r e tr with
  | nil => exact ⟨tr, by simp [dotpClaims]; rfl⟩
  | cons x l ih => cases r with
    | nil => simp at hl
    | cons y r => cases e with
      | nil => simp at he
      | cons z e =>
        obtain ⟨tr', h1⟩ := ih r e (by simpa using hl) (by simpa using he) (fun i hi => by
          have := h (i + 1) (by simpa using hi)
          simpa using this) ((tr ++ [.fr "claim_eval_dotp_left" x]) ++ [.fr "claim_eval_dotp_right" y])
        have h0 : x + y = z := by have := h 0 (by simp); simpa using this
        have hr : Runs (dotpClaims (x :: l) (y :: r) (z :: e)) tr fun a t =>
            a = (((x :: l).zip (y :: r)).flatMap fun p => [p.1, p.2]) ∧ t = tr' := by
          unfold dotpClaims
          refine (Runs.ensure (by simpa using h0)).bind fun _ tr e => ?_
          subst e
          refine Runs.say.bind fun _ _ e => ?_
          subst e
          refine Runs.say.bind fun _ _ e => ?_
          subst e
          refine Runs.bind (P := fun a t => a = _ ∧ t = tr') ⟨_, _, h1, rfl, rfl⟩ fun a tr' e => ?_
          obtain ⟨rfl, rfl⟩ := e
          exact Runs.pure ⟨by simp, rfl⟩
        obtain ⟨_, _, e, rfl, rfl⟩ := hr
        exact ⟨_, e⟩

theorem dotpClaims_val (l r e d : List F) (hl : r.length = l.length) (he : e.length = l.length) (tr tr' : Transcript F G)
    (h : dotpClaims l r e tr = .ok (d, tr')) : d = (l.zip r).flatMap fun p => [p.1, p.2] := by
  induction l generalizing r e tr tr' d with
  | nil =>
    simp only [dotpClaims] at h
    simpa using (pure_inv h).1.symm
  | cons x l ih => cases r with
    | nil => simp at hl
    | cons y r => cases e with
      | nil => simp at he
      | cons z e =>
        unfold dotpClaims at h
        obtain ⟨_, _, _, h⟩ := bind_inv h
        obtain ⟨_, _, _, h⟩ := bind_inv h
        obtain ⟨_, _, _, h⟩ := bind_inv h
        obtain ⟨d', _, h1, h⟩ := bind_inv h
        obtain ⟨rfl, _⟩ := pure_inv h
        rw [ih r e d' (by simpa using hl) (by simpa using he) _ _ h1]
        simp

theorem productVerify_of (ch : Oracle F G) (proof : ProductLayerProof F) (n m : Nat) (evals : List F)
    (hs : proof.row.read.length = 3 ∧ proof.row.write.length = 3 ∧ proof.col.read.length = 3 ∧
      proof.col.write.length = 3 ∧ proof.dotpLeft.length = 3 ∧ proof.dotpRight.length = 3 ∧ evals.length = 3)
    (dotp : List F) (ops mem : List F × List F × List F) (tr tr1 tr2 tr3 tr4 tr5 : Transcript F G)
    (m1 : memClaims "row" proof.row (tr ++ [.frs "protocol-name: Sparse polynomial product layer proof" []]) = .ok ((), tr1))
    (m2 : memClaims "col" proof.col tr1 = .ok ((), tr2))
    (d : dotpClaims proof.dotpLeft proof.dotpRight evals tr2 = .ok (dotp, tr3))
    (c1 : circuitEvalVerify ch proof.ops (proof.row.read ++ proof.row.write ++ proof.col.read ++ proof.col.write) dotp n tr3 =
      .ok (ops, tr4))
    (c2 : circuitEvalVerify ch proof.memory [proof.row.init, proof.row.audit, proof.col.init, proof.col.audit] [] m tr4 =
      .ok (mem, tr5)) :
    productLayerVerify ch proof n m evals tr = .ok ((ops, mem), tr5) := by
  have h : Runs (productLayerVerify ch proof n m evals) tr fun a t => a = (ops, mem) ∧ t = tr5 := by
    unfold productLayerVerify
    refine Runs.say.bind fun _ _ e => ?_
    subst e
    refine (Runs.ensure (by simpa using hs)).bind fun _ tr e => ?_
    subst e
    refine Runs.bind (P := fun _ t => t = tr1) ⟨_, _, m1, rfl⟩ fun a tr1 e => ?_
    subst e
    refine Runs.bind (P := fun _ t => t = tr2) ⟨_, _, m2, rfl⟩ fun a tr2 e => ?_
    subst e
    refine Runs.bind (P := fun a t => a = dotp ∧ t = tr3) ⟨_, _, d, rfl, rfl⟩ fun a tr3 e => ?_
    obtain ⟨rfl, rfl⟩ := e
    refine Runs.bind (P := fun a t => a = ops ∧ t = tr4) ⟨_, _, c1, rfl, rfl⟩ fun a tr4 e => ?_
    obtain ⟨rfl, rfl⟩ := e
    refine Runs.bind (P := fun a t => a = mem ∧ t = tr5) ⟨_, _, c2, rfl, rfl⟩ fun a tr5 e => ?_
    obtain ⟨rfl, rfl⟩ := e
    exact Runs.pure ⟨rfl, rfl⟩
  obtain ⟨_, _, e, rfl, rfl⟩ := h
  exact e

/-! ### Encodings -/

/-- The shape of an encoding and of its commitment: `2^k` reads per list and `2^lm` cells. -/
structure EncOk (params : EvalsParams G) (enc : EncodeMemory F) (commit : EncodeCommit G) (k lm : Nat) : Prop where
  n : commit.n = 2 ^ k
  m : commit.m = 2 ^ lm
  rowA : enc.row.addrs.length = 3 ∧ ∀ l ∈ enc.row.addrs, l.length = 2 ^ k
  rowT : enc.row.readTs.length = 3 ∧ ∀ l ∈ enc.row.readTs, l.length = 2 ^ k
  rowE : enc.row.auditTs.length = 2 ^ lm
  colA : enc.col.addrs.length = 3 ∧ ∀ l ∈ enc.col.addrs, l.length = 2 ^ k
  colT : enc.col.readTs.length = 3 ∧ ∀ l ∈ enc.col.readTs, l.length = 2 ^ k
  colE : enc.col.auditTs.length = 2 ^ lm
  vals : enc.vals.length = 3 ∧ ∀ l ∈ enc.vals, l.length = 2 ^ k
  ops : enc.ops = padWith (padTo (enc.row.addrs ++ enc.row.readTs ++ enc.col.addrs ++ enc.col.readTs ++ enc.vals).flatten.length)
    0 (enc.row.addrs ++ enc.row.readTs ++ enc.col.addrs ++ enc.col.readTs ++ enc.vals).flatten
  mem : enc.mem = padWith (padTo (enc.row.auditTs ++ enc.col.auditTs).length) 0 (enc.row.auditTs ++ enc.col.auditTs)
  commitOps : ∃ tr tr', packPlain params.ops enc.ops tr = .ok (commit.ops, tr')
  commitMem : ∃ tr tr', packPlain params.mem enc.mem tr = .ok (commit.mem, tr')
  rowI : enc.row.addrIndex.length = 3 ∧ ∀ l ∈ enc.row.addrIndex, l.length = 2 ^ k ∧ ∀ a ∈ l, a < 2 ^ lm
  colI : enc.col.addrIndex.length = 3 ∧ ∀ l ∈ enc.col.addrIndex, l.length = 2 ^ k ∧ ∀ a ∈ l, a < 2 ^ lm
  rowH : memoryInTheHead enc.row.addrIndex (2 ^ k) (2 ^ lm) = some enc.row
  colH : memoryInTheHead enc.col.addrIndex (2 ^ k) (2 ^ lm) = some enc.col

theorem head_inv (lists : List (List Nat)) (n m : Nat) (ts : AddrTimestamps F) (h : memoryInTheHead lists n m = some ts) :
    ts.addrIndex = lists ∧ ts.addrs = lists.map (fun l => l.map fun (a : Nat) => (a : F)) ∧
      ts.readTs.length = lists.length ∧ (∀ l ∈ ts.readTs, l.length = n) ∧ ts.auditTs.length = m ∧
      (∀ l ∈ lists, l.length = n ∧ ∀ a ∈ l, a < m) := by
  unfold memoryInTheHead at h
  cases hp : readPasses n lists (List.replicate m 0) with
  | none => rw [hp] at h; simp at h
  | some p =>
    obtain ⟨tss, audit⟩ := p
    rw [hp] at h
    simp only [Option.bind_eq_bind, Option.bind_some, Option.some.injEq] at h
    subst h
    obtain ⟨h1, h2, h3, h4, h5, _⟩ := readPasses_balance (fun (a t : Nat) => (a, t)) n lists _ _ _ hp
    refine ⟨rfl, rfl, by simp [h2], ?_, by simpa using h1, fun l hl => ⟨h3 l hl, by simpa using h5 l hl⟩⟩
    intro l hl
    obtain ⟨l', hl', rfl⟩ := List.mem_map.1 hl
    simpa using h4 l' hl'

theorem padWith_length {α : Type} (n : Nat) (d : α) (l : List α) (h : l.length ≤ n) : (padWith n d l).length = n := by
  simp [padWith]; omega

/-- The larger number of entries of the three matrices. -/
def Inst.entries (s : Inst F) : Nat :=
  max (max (switchMatrixToList s.a s.t).2.1.length (switchMatrixToList s.b s.t).2.1.length)
    (switchMatrixToList s.c s.t).2.1.length

/-- The number of variables of the two memories. -/
def Inst.memVars (s : Inst F) : Nat := max (Nat.clog 2 s.numConstraints) (Nat.clog 2 s.t + 1)

theorem t_pow (s : Inst F) : 2 ^ Nat.clog 2 s.t = s.t := by
  unfold Inst.t padTo
  rw [Nat.clog_pow _ _ (by norm_num)]

theorem memVars_eq (s : Inst F) : Nat.clog 2 (max (s.t * 2) s.numConstraints) = s.memVars := by
  unfold Inst.memVars
  rw [(Nat.clog_monotone 2).map_max, max_comm]
  congr 1
  rw [← t_pow s, ← pow_succ, Nat.clog_pow _ _ (by norm_num), Nat.clog_pow _ _ (by norm_num)]

theorem encode_ok (params : EvalsParams G) (s : Inst F) (enc : EncodeMemory F) (commit : EncodeCommit G)
    (tr tr' : Transcript F G) (h : encode params s tr = .ok ((enc, commit), tr')) :
    EncOk params enc commit (Nat.clog 2 s.entries) s.memVars ∧
    s.a.length = s.b.length ∧ s.b.length = s.c.length ∧
    enc.vals = [s.a, s.b, s.c].map (fun m => padWith (2 ^ Nat.clog 2 s.entries) 0 (switchMatrixToList m s.t).1) ∧
    enc.row.addrIndex = [s.a, s.b, s.c].map (fun m => padWith (2 ^ Nat.clog 2 s.entries) 0 (switchMatrixToList m s.t).2.1) ∧
    enc.col.addrIndex = [s.a, s.b, s.c].map (fun m => padWith (2 ^ Nat.clog 2 s.entries) 0 (switchMatrixToList m s.t).2.2) := by
  unfold encode at h
  obtain ⟨_, _, h1, h⟩ := bind_inv h
  obtain ⟨hab, rfl⟩ := ensure_inv h1
  obtain ⟨_, _, h1, h⟩ := bind_inv h
  obtain ⟨hbc, rfl⟩ := ensure_inv h1
  simp only [] at h
  obtain ⟨row, _, h1, h⟩ := bind_inv h
  obtain ⟨hrow, rfl⟩ := orPanic_inv h1
  obtain ⟨col, _, h1, h⟩ := bind_inv h
  obtain ⟨hcol, rfl⟩ := orPanic_inv h1
  obtain ⟨ops, t1, hops, h⟩ := bind_inv h
  obtain ⟨mem, t2, hmem, h⟩ := bind_inv h
  obtain ⟨he, _⟩ := pure_inv h
  simp only [Prod.mk.injEq] at he
  obtain ⟨rfl, rfl⟩ := he
  rw [← memVars_eq]
  obtain ⟨r1, r2, r3, r4, r5, r6⟩ := head_inv _ _ _ _ hrow
  obtain ⟨c1, c2, c3, c4, c5, c6⟩ := head_inv _ _ _ _ hcol
  refine ⟨⟨rfl, rfl, ?_, ⟨r3, r4⟩, r5, ?_, ⟨c3, c4⟩, c5, ?_, rfl, rfl, ⟨_, _, hops⟩, ⟨_, _, hmem⟩, ?_, ?_, ?_, ?_⟩,
    by simpa using hab, by simpa using hbc, rfl, r1, c1⟩
  · simp only [r2]
    refine ⟨by simp, ?_⟩
    intro l hl
    obtain ⟨l', hl', rfl⟩ := List.mem_map.1 hl
    rw [List.length_map]; exact (r6 l' hl').1
  · simp only [c2]
    refine ⟨by simp, ?_⟩
    intro l hl
    obtain ⟨l', hl', rfl⟩ := List.mem_map.1 hl
    rw [List.length_map]; exact (c6 l' hl').1
  · refine ⟨by simp, ?_⟩
    intro l hl
    obtain ⟨l', hl', rfl⟩ := List.mem_map.1 hl
    apply padWith_length
    have e : ∀ m : Rows F, (switchMatrixToList m s.t).1.length = (switchMatrixToList m s.t).2.1.length := by
      intro m; simp [switchMatrixToList]
    refine le_trans ?_ (Nat.le_pow_clog (by norm_num) _)
    simp only [List.mem_cons, List.not_mem_nil, or_false] at hl'
    rcases hl' with rfl | rfl | rfl <;> rw [e] <;> simp
  · rw [r1]; exact ⟨by simp, r6⟩
  · rw [c1]; exact ⟨by simp, c6⟩
  · rw [r1]; exact hrow
  · rw [c1]; exact hcol

theorem padTo_ge (n : Nat) : n ≤ padTo n := Nat.le_pow_clog (by norm_num) _

theorem clog_mul_pow (a k : Nat) (ha : 0 < a) : Nat.clog 2 (a * 2 ^ k) = Nat.clog 2 a + k := by
  apply le_antisymm
  · rw [Nat.clog_le_iff_le_pow (by norm_num), pow_add]
    exact Nat.mul_le_mul_right _ (Nat.le_pow_clog (by norm_num) _)
  · by_contra hlt
    push Not at hlt
    have h1 : a * 2 ^ k ≤ 2 ^ Nat.clog 2 (a * 2 ^ k) := Nat.le_pow_clog (by norm_num) _
    have hk : k ≤ Nat.clog 2 (a * 2 ^ k) := by
      by_contra hk
      push Not at hk
      have := Nat.pow_lt_pow_right (a := 2) (by norm_num) hk
      have : 1 * 2 ^ k ≤ a * 2 ^ k := Nat.mul_le_mul_right _ ha
      omega
    obtain ⟨j, hj⟩ := Nat.exists_eq_add_of_le hk
    have h2 : a ≤ 2 ^ j := by
      rw [hj, pow_add, mul_comm (2 ^ k)] at h1
      exact Nat.le_of_mul_le_mul_right h1 (by positivity)
    have := (Nat.clog_le_iff_le_pow (b := 2) (by norm_num)).2 h2
    omega

theorem flatten_length_of {α : Type} (lists : List (List α)) (n : Nat) (h : ∀ l ∈ lists, l.length = n) :
    lists.flatten.length = lists.length * n := by
  rw [List.length_flatten, List.map_congr_left h]
  simp

/-- The lists behind the commitment to the operations. -/
def EncodeMemory.lists (enc : EncodeMemory F) : List (List F) :=
  enc.row.addrs ++ enc.row.readTs ++ enc.col.addrs ++ enc.col.readTs ++ enc.vals

section
variable {params : EvalsParams G} {enc : EncodeMemory F} {commit : EncodeCommit G} {k lm : Nat}

theorem EncOk.lists_len (h : EncOk params enc commit k lm) : enc.lists.length = 15 ∧ ∀ l ∈ enc.lists, l.length = 2 ^ k := by
  refine ⟨by simp [EncodeMemory.lists, h.rowA.1, h.rowT.1, h.colA.1, h.colT.1, h.vals.1], ?_⟩
  intro l hl
  simp only [EncodeMemory.lists, List.mem_append] at hl
  rcases hl with (((hl | hl) | hl) | hl) | hl
  · exact h.rowA.2 l hl
  · exact h.rowT.2 l hl
  · exact h.colA.2 l hl
  · exact h.colT.2 l hl
  · exact h.vals.2 l hl

theorem EncOk.ops_len (h : EncOk params enc commit k lm) : enc.ops.length = 2 ^ (4 + k) := by
  have e : enc.lists.flatten.length = 15 * 2 ^ k := by
    rw [flatten_length_of _ _ h.lists_len.2, h.lists_len.1]
  rw [h.ops, padWith_length _ _ _ (padTo_ge _)]
  show 2 ^ Nat.clog 2 enc.lists.flatten.length = _
  rw [e, clog_mul_pow _ _ (by norm_num), show Nat.clog 2 15 = 4 by decide]

theorem EncOk.mem_len (h : EncOk params enc commit k lm) : enc.mem.length = 2 ^ (1 + lm) := by
  rw [h.mem, padWith_length _ _ _ (padTo_ge _)]
  show 2 ^ Nat.clog 2 (enc.row.auditTs ++ enc.col.auditTs).length = _
  rw [List.length_append, h.rowE, h.colE, ← two_mul, clog_mul_pow _ _ (by norm_num), show Nat.clog 2 2 = 1 by decide]

theorem EncOk.ops_at (h : EncOk params enc commit k lm) (cs r : List F) (hr : r.length = k) :
    mle enc.ops (cs ++ r) = mle (enc.lists.map (mle · r)) cs := by
  rw [h.ops]
  exact mle_flatten enc.lists cs r (by rw [hr]; exact h.lists_len.2) _

theorem EncOk.mem_at (h : EncOk params enc commit k lm) (cs r : List F) (hr : r.length = lm) :
    mle enc.mem (cs ++ r) = mle [mle enc.row.auditTs r, mle enc.col.auditTs r] cs := by
  rw [h.mem]
  have := mle_flatten [enc.row.auditTs, enc.col.auditTs] cs r (by simp [hr, h.rowE, h.colE])
    (padTo (enc.row.auditTs ++ enc.col.auditTs).length - (enc.row.auditTs ++ enc.col.auditTs).length)
  simpa [padWith] using this

/-- What an opening proof of a list of length `2^m` needs. -/
def CanOpen (pc : PcParams G) (m : Nat) : Prop :=
  pc.genN.h = pc.gen1.h ∧ 2 ^ (m - m / 2) ≤ pc.genN.generators.length ∧ pc.gen1.generators ≠ []

/-- A committed list can be opened at every point. -/
theorem can_open (ch : Oracle F G) (hch : ∀ t, ch t ≠ 0) (pc : PcParams G) (m : Nat) (hp : CanOpen pc m) (label : String)
    (cs r poly : List F) (hm : (cs ++ r).length = m) (hl : poly.length = 2 ^ m) (comms : List G)
    (hc : ∃ tr tr', packPlain pc poly tr = .ok (comms, tr')) (tr : Transcript F G) :
    ∃ proof tr', openFolded ch pc label cs r (mle poly (cs ++ r)) comms proof tr = .ok ((), tr') := by
  obtain ⟨t0, t0', hc⟩ := hc
  obtain ⟨proof, tr', h⟩ := open_runs ch hch pc label cs r poly (mle poly (cs ++ r)) (by rw [hm, hl]) (by rw [hm]; exact hp.2.1)
    hp.2.2 ⟨0, 0, 0, List.replicate m (0, 0)⟩ (by rw [hm]; simp) tr
  exact ⟨proof, tr', open_accepted ch pc hp.1 label cs r poly _ comms _ _ _ _ hc proof h⟩

end

theorem evalEq_symm (a b : List F) (h : a.length = b.length) : evalEqXY a b = some (mle (evalEq a) b) := by
  rw [eqTau_eq a b h]
  congr 1
  unfold mle
  rw [h]
  refine Finset.sum_congr rfl fun i hi => ?_
  have hi := Finset.mem_range.1 hi
  rw [evalEq_getD' _ _ hi, evalEq_getD' _ _ (by rw [h]; exact hi), mul_comm]

theorem mle_initList (g1 g2 : F) (rows r : List F) (h : rows.length = r.length) :
    mle (initList g1 g2 (evalEq rows)) r = readHash g1 g2 (addrEval r) (mle (evalEq rows) r) 0 := by
  unfold initList
  rw [mle_hashList _ _ _ _ _ _ (by simp [evalEq_length, h]) (by simp [evalEq_length, h]) (by simp [evalEq_length, h]),
    mle_zeros, mle_positions' _ _ (by simp [evalEq_length, h])]

theorem mle_auditList (g1 g2 : F) (rows ts r : List F) (h : rows.length = r.length) (ht : ts.length = 2 ^ r.length) :
    mle (auditList g1 g2 (evalEq rows) ts) r = readHash g1 g2 (addrEval r) (mle (evalEq rows) r) (mle ts r) := by
  unfold auditList
  rw [mle_hashList _ _ _ _ _ _ (by simp [evalEq_length, h]) (by simp [evalEq_length, h]) ht,
    mle_positions' _ _ (by simp [evalEq_length, h])]

theorem equalize_length (rx ry : List F) (n : Nat) (h : max rx.length ry.length = n) :
    (equalizeLength rx ry).1.length = n ∧ (equalizeLength rx ry).2.length = n := by
  simp [equalizeLength]; omega

theorem sparseVerify_of (ch : Oracle F G) (params : EvalsParams G) (proof : EvalsProof F G) (commit : EncodeCommit G)
    (rx ry : List F) (evals : F × F × F) (tr t2 t3 : Transcript F G) (ops dotp randsOps mem md randsMem : List F)
    (hm : 2 ^ (equalizeLength rx ry).1.length = commit.m)
    (g1 g2 : F) (t1 : Transcript F G)
    (hg : (do let g1 ← challenge ch "challenge_gamma_hash"
              let g2 ← challenge ch "challenge_gamma_hash"
              pure (g1, g2) : Vf F G (F × F)) ((tr ++ [.frs "protocol-name: sparse polynomial evaluation proof" []]) ++
                [.pts "comm_poly_row_col_ops_val" proof.derefsCommit]) = .ok ((g1, g2), t1))
    (h1 : productLayerVerify ch proof.layer commit.n commit.m [evals.1, evals.2.1, evals.2.2] t1 =
      .ok (((ops, dotp, randsOps), (mem, md, randsMem)), t2))
    (hl : mem.length = 4 ∧ ops.length = 12 ∧ dotp.length = 9)
    (h2 : hashLayerVerify ch params proof.hash (equalizeLength rx ry).1 (equalizeLength rx ry).2 randsOps randsMem g1 g2
      ⟨mem.getD 0 0, ops.take 3, (ops.drop 3).take 3, mem.getD 1 0⟩
      ⟨mem.getD 2 0, (ops.drop 6).take 3, (ops.drop 9).take 3, mem.getD 3 0⟩
      dotp commit proof.derefsCommit t2 = .ok ((), t3)) :
    sparseEvalVerify ch params proof commit rx ry evals tr = .ok ((), t3) := by
  have h : Runs (sparseEvalVerify ch params proof commit rx ry evals) tr fun _ t => t = t3 := by
    unfold sparseEvalVerify
    refine Runs.say.bind fun _ _ e => ?_
    subst e
    simp only []
    refine (Runs.ensure (by simpa using hm)).bind fun _ tr e => ?_
    subst e
    refine Runs.say.bind fun _ _ e => ?_
    subst e
    obtain ⟨a, ta, ha, hg⟩ := bind_inv hg
    obtain ⟨b, tb, hb, hg⟩ := bind_inv hg
    obtain ⟨e, rfl⟩ := pure_inv hg
    simp only [Prod.mk.injEq] at e
    obtain ⟨rfl, rfl⟩ := e
    refine Runs.bind (P := fun x t => x = a ∧ t = ta) ⟨_, _, ha, rfl, rfl⟩ fun x tx e => ?_
    obtain ⟨rfl, rfl⟩ := e
    refine Runs.bind (P := fun x t => x = b ∧ t = tb) ⟨_, _, hb, rfl, rfl⟩ fun x tx e => ?_
    obtain ⟨rfl, rfl⟩ := e
    refine Runs.bind (P := fun x t => x = ((ops, dotp, randsOps), (mem, md, randsMem)) ∧ t = t2) ⟨_, _, h1, rfl, rfl⟩
      fun x tx e => ?_
    obtain ⟨rfl, rfl⟩ := e
    refine (Runs.ensure (by simpa using hl)).bind fun _ tr e => ?_
    subst e
    exact ⟨_, _, h2, rfl⟩
  obtain ⟨_, t, e, rfl⟩ := h
  exact e

/-! ### `encode` finishes -/

theorem switch_index (m : Rows F) (nx ny : Nat) (hf : Fits m nx ny) :
    (∀ i ∈ (switchMatrixToList m (2 ^ ny)).2.1, i < 2 ^ nx) ∧
    (∀ c ∈ (switchMatrixToList m (2 ^ ny)).2.2, c < 2 ^ (ny + 1)) := by
  obtain ⟨vals, rows, cols, hsw⟩ : ∃ vals rows cols, switchMatrixToList m (2 ^ ny) = (vals, rows, cols) := ⟨_, _, _, rfl⟩
  obtain ⟨h1, h2, _, _, h5⟩ := C48 m (2 ^ ny) _ _ _ hsw
  rw [hsw]
  have key : ∀ (j : Nat) (hj : j < rows.length), rows[j] < 2 ^ nx ∧ cols[j]'(by rw [← h2]; exact hj) < 2 ^ (ny + 1) := by
    intro j hj
    have hmem := (h5 (rows[j]) (cols[j]'(by rw [← h2]; exact hj)) (vals[j]'(by rw [h1]; exact hj))).1 (by
        rw [List.mem_iff_getElem]
        exact ⟨j, by simp [h1, ← h2, hj], by simp⟩)
    obtain ⟨hv, he⟩ := hmem
    constructor
    · by_contra hc
      rw [List.getD_eq_default _ _ (le_trans hf.1 (by omega))] at he
      exact hv (by rw [← he]; simp [entry])
    · by_contra hc
      apply hv
      rw [← he]
      unfold entry
      rw [List.filter_eq_nil_iff.2]
      · rfl
      · intro t ht
        simp only [decide_eq_true_eq]
        intro hcol
        by_cases hi : rows[j] < m.length
        · rw [List.getD_eq_getElem _ _ hi] at ht
          have := hf.2 _ (List.getElem_mem hi) t ht
          omega
        · rw [List.getD_eq_default _ _ (by omega)] at ht
          simp at ht
  constructor
  · intro i hi
    obtain ⟨j, hj, rfl⟩ := List.mem_iff_getElem.1 hi
    exact (key j hj).1
  · intro c hc
    obtain ⟨j, hj, rfl⟩ := List.mem_iff_getElem.1 hc
    exact (key j (by rw [h2]; exact hj)).2

theorem padWith_mem {α : Type} (n : Nat) (d : α) (l : List α) (P : α → Prop) (h : ∀ x ∈ l, P x) (hd : P d) :
    ∀ x ∈ padWith n d l, P x := by
  intro x hx
  rcases List.mem_append.1 hx with hx | hx
  · exact h x hx
  · rw [List.eq_of_mem_replicate hx]; exact hd

/-- `encode` finishes on every instance whose matrices fit, and its result has the stated shape. -/
theorem encode_runs (params : EvalsParams G) (s : Inst F) (hf : s.Fits) (hab : s.a.length = s.b.length)
    (hbc : s.b.length = s.c.length) (tr : Transcript F G) :
    ∃ enc commit, encode params s tr = .ok ((enc, commit), tr) := by
  have hm : padTo (max (s.t * 2) s.numConstraints) = 2 ^ s.memVars := by unfold padTo; rw [memVars_eq]
  obtain ⟨fa, fb, fc⟩ := hf
  have ia := switch_index _ _ _ fa
  have ib := switch_index _ _ _ fb
  have ic := switch_index _ _ _ fc
  rw [t_pow] at ia ib ic
  have hx : 2 ^ Nat.clog 2 s.numConstraints ≤ padTo (max (s.t * 2) s.numConstraints) := by
    rw [hm]; exact Nat.pow_le_pow_right (by norm_num) (le_max_left _ _)
  have hy : 2 ^ (Nat.clog 2 s.t + 1) ≤ padTo (max (s.t * 2) s.numConstraints) := by
    rw [hm]; exact Nat.pow_le_pow_right (by norm_num) (le_max_right _ _)
  have hpos : 0 < padTo (max (s.t * 2) s.numConstraints) := by rw [hm]; positivity
  have hc : ∀ m : Rows F, (switchMatrixToList m s.t).2.2.length = (switchMatrixToList m s.t).2.1.length := fun m => by
    simp [switchMatrixToList]
  have : Runs (encode params s) tr fun _ t => t = tr := by
    unfold encode
    refine (Runs.ensure (by simpa using hab)).bind fun _ tr e => ?_
    subst e
    refine (Runs.ensure (by simpa using hbc)).bind fun _ tr e => ?_
    subst e
    simp only []
    obtain ⟨row, hrow, _⟩ := C49_complete (F := F) ([(switchMatrixToList s.a s.t).2.1, (switchMatrixToList s.b s.t).2.1,
      (switchMatrixToList s.c s.t).2.1].map (padWith (padTo s.entries) 0)) (padTo s.entries)
      (padTo (max (s.t * 2) s.numConstraints)) (by
        intro l hl
        obtain ⟨l', hl', rfl⟩ := List.mem_map.1 hl
        apply padWith_length
        refine le_trans ?_ (padTo_ge _)
        simp only [List.mem_cons, List.not_mem_nil, or_false] at hl'
        rcases hl' with rfl | rfl | rfl <;> simp [Inst.entries]) (by
        intro l hl
        obtain ⟨l', hl', rfl⟩ := List.mem_map.1 hl
        refine padWith_mem _ _ _ _ ?_ hpos
        intro x hx'
        simp only [List.mem_cons, List.not_mem_nil, or_false] at hl'
        rcases hl' with rfl | rfl | rfl
        · exact lt_of_lt_of_le (ia.1 x hx') hx
        · exact lt_of_lt_of_le (ib.1 x hx') hx
        · exact lt_of_lt_of_le (ic.1 x hx') hx) (List.replicate _ 0) (List.length_replicate ..)
    obtain ⟨col, hcol, _⟩ := C49_complete (F := F) ([(switchMatrixToList s.a s.t).2.2, (switchMatrixToList s.b s.t).2.2,
      (switchMatrixToList s.c s.t).2.2].map (padWith (padTo s.entries) 0)) (padTo s.entries)
      (padTo (max (s.t * 2) s.numConstraints)) (by
        intro l hl
        obtain ⟨l', hl', rfl⟩ := List.mem_map.1 hl
        apply padWith_length
        refine le_trans ?_ (padTo_ge _)
        simp only [List.mem_cons, List.not_mem_nil, or_false] at hl'
        rcases hl' with rfl | rfl | rfl <;> rw [hc] <;> simp [Inst.entries]) (by
        intro l hl
        obtain ⟨l', hl', rfl⟩ := List.mem_map.1 hl
        refine padWith_mem _ _ _ _ ?_ hpos
        intro x hx'
        simp only [List.mem_cons, List.not_mem_nil, or_false] at hl'
        rcases hl' with rfl | rfl | rfl
        · exact lt_of_lt_of_le (ia.2 x hx') hy
        · exact lt_of_lt_of_le (ib.2 x hx') hy
        · exact lt_of_lt_of_le (ic.2 x hx') hy) (List.replicate _ 0) (List.length_replicate ..)
    refine (Runs.orPanic hrow).bind fun _ tr e => ?_
    obtain ⟨rfl, rfl⟩ := e
    refine (Runs.orPanic hcol).bind fun _ tr e => ?_
    obtain ⟨rfl, rfl⟩ := e
    have hpad : ∀ l : List F, (padWith (padTo l.length) 0 l).length = 2 ^ Nat.clog 2 l.length := fun l =>
      padWith_length _ _ _ (padTo_ge _)
    obtain ⟨oc, ho⟩ := packPlain_ok params.ops _ _ (hpad _) tr
    refine Runs.bind (P := fun _ t => t = tr) ⟨_, _, ho, rfl⟩ fun a tr e => ?_
    subst e
    obtain ⟨mc, hmc⟩ := packPlain_ok params.mem _ _ (hpad _) tr
    refine Runs.bind (P := fun _ t => t = tr) ⟨_, _, hmc, rfl⟩ fun a tr e => ?_
    subst e
    exact Runs.pure rfl
  obtain ⟨⟨enc, commit⟩, t, e, rfl⟩ := this
  exact ⟨enc, commit, e⟩

end Zkp.Spartan
