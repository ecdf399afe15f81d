/- C81: honest Spartan SNARK proofs are accepted. -/
import Verif.Proof.SpartanSparse
import Verif.Props.SpartanComplete

namespace Zkp.Spartan

open Zkp.Ml Zkp.Sc Zkp.Cp

set_option linter.unusedSectionVars false
set_option linter.unusedSimpArgs false

variable {F : Type} [Field F] {G : Type} [AddCommGroup G] [Module F G] [DecidableEq F] [DecidableEq G]

theorem derefs_shape (mem : List F) (addrs : List (List Nat)) (n : Nat) (e : List (List F)) (h : derefs mem addrs = some e)
    (hn : ∀ l ∈ addrs, l.length = n) : e.length = addrs.length ∧ ∀ l ∈ e, l.length = n := by
  obtain ⟨h1, h2⟩ := mapM_out h
  refine ⟨h1, fun l hl => ?_⟩
  obtain ⟨a, ha, he⟩ := h2 l hl
  rw [(mapM_out he).1, hn a ha]

theorem evals_at (lists : List (List F)) (r : List F) (h : ∀ l ∈ lists, l.length = 2 ^ r.length) :
    (lists.mapM fun l => evalValue l r) = some (lists.map (mle · r)) :=
  Zkp.Sc.mapM_some _ _ _ fun l hl => evalValue_eq l r (by rw [h l hl])

/-- One memory: what the product circuits give is what the timestamp checks ask for. -/
theorem behind_ok (g1 g2 : F) (rows opsR memR audit : List F) (a0 a1 a2 t0 t1 t2 e0 e1 e2 : List F)
    (hrows : rows.length = memR.length) (hau : audit.length = 2 ^ memR.length)
    (hl : ∀ l ∈ [a0, a1, a2, t0, t1, t2, e0, e1, e2], l.length = 2 ^ opsR.length) :
    behindVerify memR ⟨mle (initList g1 g2 (evalEq rows)) memR,
      (triples [a0, a1, a2] [t0, t1, t2] [e0, e1, e2]).map (fun x => mle (readList g1 g2 x) opsR),
      (triples [a0, a1, a2] [t0, t1, t2] [e0, e1, e2]).map (fun x => mle (writeList g1 g2 x) opsR),
      mle (auditList g1 g2 (evalEq rows) audit) memR⟩ rows ([e0, e1, e2].map (mle · opsR)) ([a0, a1, a2].map (mle · opsR))
      ([t0, t1, t2].map (mle · opsR)) (mle audit memR) g1 g2 = some () := by
  have hr : ∀ a v t : List F, a.length = 2 ^ opsR.length → v.length = 2 ^ opsR.length → t.length = 2 ^ opsR.length →
      mle (readList g1 g2 ((a, t), v)) opsR = readHash g1 g2 (mle a opsR) (mle v opsR) (mle t opsR) := fun a v t h1 h2 h3 =>
    mle_hashList g1 g2 a v t opsR h1 h2 h3
  have hw : ∀ a v t : List F, a.length = 2 ^ opsR.length → v.length = 2 ^ opsR.length → t.length = 2 ^ opsR.length →
      mle (writeList g1 g2 ((a, t), v)) opsR = readHash g1 g2 (mle a opsR) (mle v opsR) (mle t opsR + 1) :=
      fun a v t h1 h2 h3 => by
    rw [← mle_add_one t opsR h3]
    exact mle_hashList g1 g2 a v _ opsR h1 h2 (by simpa using h3)
  simp only [List.mem_cons, List.not_mem_nil, or_false, forall_eq_or_imp, forall_eq] at hl
  obtain ⟨l1, l2, l3, l4, l5, l6, l7, l8, l9⟩ := hl
  refine (C50_actual _ _ _ _ _ _ _ _ _).2 ⟨_, evalEq_symm rows memR hrows, mle_initList g1 g2 rows memR hrows,
    mle_auditList g1 g2 rows _ memR hrows hau, ?_⟩
  intro i hi
  have : i = 0 ∨ i = 1 ∨ i = 2 := by simp at hi; omega
  rcases this with rfl | rfl | rfl
  · exact ⟨_, _, _, _, _, rfl, rfl, rfl, rfl, rfl, hr _ _ _ l1 l7 l4, hw _ _ _ l1 l7 l4⟩
  · exact ⟨_, _, _, _, _, rfl, rfl, rfl, rfl, rfl, hr _ _ _ l2 l8 l5, hw _ _ _ l2 l8 l5⟩
  · exact ⟨_, _, _, _, _, rfl, rfl, rfl, rfl, rfl, hr _ _ _ l3 l9 l6, hw _ _ _ l3 l9 l6⟩

/-- An opening that the prover finishes is accepted. -/
theorem open_step (ch : Oracle F G) (pc : PcParams G) (hh : pc.genN.h = pc.gen1.h) (label : String) (cs r poly : List F) (e : F)
    (he : e = mle poly (cs ++ r)) (rand : OpenRand F) (comms : List G) (hc : ∃ tr tr', packPlain pc poly tr = .ok (comms, tr'))
    (proof : DotProof F G) (tr tr' : Transcript F G) (hp : openProve ch pc label cs r e poly rand tr = .ok (proof, tr')) :
    openFolded ch pc label cs r e comms proof tr = .ok ((), tr') := by
  subst he
  obtain ⟨_, _, hc⟩ := hc
  exact open_accepted ch pc hh label cs r poly rand comms _ _ _ _ hc proof hp

theorem fold_step (ch : Oracle F G) (l1 l2 : String) (evals cs : List F) (e : F) (tr tr' : Transcript F G)
    (h : foldEvals ch l1 l2 evals tr = .ok ((cs, e), tr')) : e = mle evals cs ∧ cs.length = Nat.clog 2 evals.length := by
  obtain ⟨cs', t, h', hl⟩ := foldEvals_ok ch l1 l2 evals tr
  rw [h] at h'
  injection h' with h'
  simp only [Prod.mk.injEq] at h'
  obtain ⟨⟨rfl, rfl⟩, rfl⟩ := h'
  exact ⟨rfl, hl⟩

theorem circuit_step (h2 : (2 : F) ≠ 0) (h3 : (3 : F) ≠ 0) (ch : Oracle F G) (k : Nat) (hk : 0 < k)
    (xs : List (List F)) (hne : xs ≠ []) (hxs : ∀ x ∈ xs, x.length = 2 ^ k) (full : List (Dotp F))
    (hfull : ∀ d ∈ full, d.1.length = 2 ^ k ∧ d.2.1.length = 2 ^ k ∧ d.2.2.length = 2 ^ k) (tr tr' : Transcript F G)
    (proof : CircuitEvalProof F) (r : List F)
    (h : circuitEvalProve ch (xs.map constructProductCircuit) (halfList full) tr = .ok ((proof, r), tr')) :
    r.length = k ∧ circuitEvalVerify ch proof (xs.map List.prod) (halfSums full) (2 ^ k) tr =
      .ok ((xs.map (mle · r), dotpAt full r, r), tr') := by
  obtain ⟨⟨p, r'⟩, t, h', e1, e2⟩ := circuitEval_complete h2 h3 ch k hk xs hne hxs full hfull tr
  rw [h] at h'
  injection h' with h'
  simp only [Prod.mk.injEq] at h'
  obtain ⟨⟨rfl, rfl⟩, rfl⟩ := h'
  exact ⟨e1, e2⟩

theorem pad_commit (pc : PcParams G) (l : List F) (c : List G) (tr tr' : Transcript F G)
    (h : packPlain pc (padWith (padTo l.length) 0 l) tr = .ok (c, tr')) : tr' = tr := by
  obtain ⟨c', h'⟩ := packPlain_ok pc (padWith (padTo l.length) 0 l) (Nat.clog 2 l.length)
    (padWith_length _ _ _ (padTo_ge _)) tr
  rw [h] at h'
  injection h' with e
  simp only [Prod.mk.injEq] at e
  exact e.2

/-- The product layer: the verifier gets the evaluations of all hash lists. -/
theorem product_complete (h2 : (2 : F) ≠ 0) (h3 : (3 : F) ≠ 0) (ch : Oracle F G) (k lm : Nat) (hk : 0 < k) (hlm : 0 < lm)
    (rR rW cR cW : List (List F)) (rI rA cI cA : List F) (row col : MemoryLayer F)
    (p1 : row.initProd = constructProductCircuit rI) (p2 : row.readProd = rR.map constructProductCircuit)
    (p3 : row.writeProd = rW.map constructProductCircuit) (p4 : row.auditProd = constructProductCircuit rA)
    (q1 : col.initProd = constructProductCircuit cI) (q2 : col.readProd = cR.map constructProductCircuit)
    (q3 : col.writeProd = cW.map constructProductCircuit) (q4 : col.auditProd = constructProductCircuit cA)
    (hlen : rR.length = 3 ∧ rW.length = 3 ∧ cR.length = 3 ∧ cW.length = 3)
    (hops : ∀ l ∈ rR ++ rW ++ cR ++ cW, l.length = 2 ^ k) (hmem : ∀ l ∈ [rI, rA, cI, cA], l.length = 2 ^ lm)
    (vals eRow eCol : List (List F)) (hv : vals.length = 3) (hr : eRow.length = 3) (hc : eCol.length = 3)
    (hfull : ∀ d ∈ eRow.zip (eCol.zip vals), d.1.length = 2 ^ k ∧ d.2.1.length = 2 ^ k ∧ d.2.2.length = 2 ^ k)
    (evals : List F) (he : evals.length = 3) (tr tr' : Transcript F G) (layer : ProductLayerProof F) (opsR memR : List F)
    (h : productLayerProve ch vals eRow eCol row col evals tr = .ok ((layer, opsR, memR), tr')) :
    opsR.length = k ∧ memR.length = lm ∧ productLayerVerify ch layer (2 ^ k) (2 ^ lm) evals tr =
      .ok ((((rR ++ rW ++ cR ++ cW).map (mle · opsR), dotpAt (eRow.zip (eCol.zip vals)) opsR, opsR),
        ([rI, rA, cI, cA].map (mle · memR), dotpAt [] memR, memR)), tr') := by
  have hk2 : 2 ≤ 2 ^ k := by calc 2 = 2 ^ 1 := rfl
                            _ ≤ 2 ^ k := Nat.pow_le_pow_right (by norm_num) hk
  have hm2 : 2 ≤ 2 ^ lm := by calc 2 = 2 ^ 1 := rfl
                             _ ≤ 2 ^ lm := Nat.pow_le_pow_right (by norm_num) hlm
  have hops2 : ∀ l ∈ rR ++ rW ++ cR ++ cW, 2 ≤ l.length := fun l hl => by rw [hops l hl]; exact hk2
  have hmem2 : ∀ l ∈ [rI, rA, cI, cA], 2 ≤ l.length := fun l hl => by rw [hmem l hl]; exact hm2
  unfold productLayerProve at h
  obtain ⟨_, _, h0, h⟩ := bind_inv h
  obtain rfl := say_inv h0
  obtain ⟨rowC, _, h0, h⟩ := bind_inv h
  obtain ⟨hrowC, rfl⟩ := orPanic_inv h0
  obtain ⟨_, t2, m1, h⟩ := bind_inv h
  obtain ⟨colC, _, h0, h⟩ := bind_inv h
  obtain ⟨hcolC, rfl⟩ := orPanic_inv h0
  obtain ⟨_, t3, m2, h⟩ := bind_inv h
  obtain ⟨_, _, h0, h⟩ := bind_inv h
  obtain ⟨_, rfl⟩ := ensure_inv h0
  obtain ⟨_, _, h0, h⟩ := bind_inv h
  obtain ⟨_, rfl⟩ := ensure_inv h0
  obtain ⟨_, _, h0, h⟩ := bind_inv h
  obtain ⟨_, rfl⟩ := ensure_inv h0
  simp only [] at h
  obtain ⟨_, _, h0, h⟩ := bind_inv h
  obtain ⟨_, rfl⟩ := ensure_inv h0
  obtain ⟨dotp, t4, hd, h⟩ := bind_inv h
  obtain ⟨⟨opsP, opsR'⟩, t5, c1, h⟩ := bind_inv h
  simp only [] at h
  obtain ⟨⟨memP, memR'⟩, t6, c2, h⟩ := bind_inv h
  obtain ⟨e, rfl⟩ := pure_inv h
  simp only [Prod.mk.injEq] at e
  obtain ⟨rfl, rfl, rfl⟩ := e
  rw [claimsOf_eq row _ _ _ _ p1 p2 p3 p4 (hmem2 _ (by simp)) (fun l hl => hops2 l (by simp [hl]))
    (fun l hl => hops2 l (by simp [hl])) (hmem2 _ (by simp))] at hrowC
  rw [claimsOf_eq col _ _ _ _ q1 q2 q3 q4 (hmem2 _ (by simp)) (fun l hl => hops2 l (by simp [hl]))
    (fun l hl => hops2 l (by simp [hl])) (hmem2 _ (by simp))] at hcolC
  have hrowC := (Option.some.inj hrowC).symm
  have hcolC := (Option.some.inj hcolC).symm
  generalize hf : eRow.zip (eCol.zip vals) = full at *
  have hfl : full.length = 3 := by rw [← hf]; simp [hr, hc, hv]
  have hdv := dotpClaims_val _ _ _ _ (by simp) (by simp [hfl, he]) _ _ hd
  have hds : dotp = halfSums full := by
    rw [hdv, List.map_map, List.map_map, List.zip_map', List.flatMap_map]
    rfl
  have hhl : (full.map halfDotp).flatMap (fun h => [h.1, h.2]) = halfList full := by
    rw [List.flatMap_map]; rfl
  rw [p2, p3, q2, q3, ← List.map_append, ← List.map_append, ← List.map_append, hhl] at c1
  obtain ⟨hro, c1⟩ := circuit_step h2 h3 ch k hk _ (by
    intro e
    have := congrArg List.length e
    simp [hlen] at this) hops full hfull _ _ _ _ c1
  rw [p1, p4, q1, q4] at c2
  obtain ⟨hrm, c2⟩ := circuit_step h2 h3 ch lm hlm [rI, rA, cI, cA] (by simp) hmem [] (by simp) _ _ _ _ c2
  refine ⟨hro, hrm, ?_⟩
  refine productVerify_of ch _ _ _ evals ?_ dotp _ _ tr t2 t3 t4 t5 t6 m1 m2 hd ?_ ?_
  · simp only [hrowC, hcolC]
    simp [hlen, hfl, he]
  · simp only [hrowC, hcolC]
    rw [← List.map_append, ← List.map_append, ← List.map_append, hds]
    exact c1
  · simp only [hrowC, hcolC]
    exact c2

/-- The hash layer. -/
theorem hash_complete (ch : Oracle F G) (params : EvalsParams G)
    (hop : params.ops.genN.h = params.ops.gen1.h) (hmp : params.mem.genN.h = params.mem.gen1.h)
    (hdp : params.derefs.genN.h = params.derefs.gen1.h)
    (enc : EncodeMemory F) (commit : EncodeCommit G) (k lm : Nat) (he : EncOk params enc commit k lm)
    (rows cols opsR memR : List F) (hro : opsR.length = k) (hrm : memR.length = lm)
    (a0 a1 a2 u0 u1 u2 e0 e1 e2 b0 b1 b2 w0 w1 w2 f0 f1 f2 v0 v1 v2 : List F)
    (hA : enc.row.addrs = [a0, a1, a2]) (hU : enc.row.readTs = [u0, u1, u2])
    (hB : enc.col.addrs = [b0, b1, b2]) (hW : enc.col.readTs = [w0, w1, w2]) (hV : enc.vals = [v0, v1, v2])
    (hE : ∀ l ∈ [e0, e1, e2] ++ [f0, f1, f2], l.length = 2 ^ k)
    (dc : List G) (hdc : ∃ tr tr', packPlain params.derefs (padWith (padTo ([e0, e1, e2] ++ [f0, f1, f2]).flatten.length) 0
      ([e0, e1, e2] ++ [f0, f1, f2]).flatten) tr = .ok (dc, tr')) (g1 g2 : F) (row col : MemClaims F) (dotp : List F)
    (hdotp : dotp = [mle e0 opsR, mle f0 opsR, mle v0 opsR, mle e1 opsR, mle f1 opsR, mle v1 opsR, mle e2 opsR,
      mle f2 opsR, mle v2 opsR])
    (B1 : behindVerify memR row rows ([e0, e1, e2].map (mle · opsR)) ([a0, a1, a2].map (mle · opsR))
      ([u0, u1, u2].map (mle · opsR)) (mle enc.row.auditTs memR) g1 g2 = some ())
    (B2 : behindVerify memR col cols ([f0, f1, f2].map (mle · opsR)) ([b0, b1, b2].map (mle · opsR))
      ([w0, w1, w2].map (mle · opsR)) (mle enc.col.auditTs memR) g1 g2 = some ())
    (r1 r2 r3 : OpenRand F) (tr tr' : Transcript F G) (hash : HashLayerProof F G)
    (h : hashLayerProve ch params enc opsR memR [e0, e1, e2] [f0, f1, f2] (padWith (padTo ([e0, e1, e2] ++
      [f0, f1, f2]).flatten.length) 0 ([e0, e1, e2] ++ [f0, f1, f2]).flatten) r1 r2 r3 tr = .ok (hash, tr')) :
    hashLayerVerify ch params hash rows cols opsR memR g1 g2 row col dotp commit dc tr = .ok ((), tr') := by
  have hat : ∀ l : List (List F), (∀ x ∈ l, x.length = 2 ^ k) → (l.mapM fun l => evalValue l opsR) = some (l.map (mle · opsR)) := by
    intro l h
    apply evals_at
    rw [hro]
    exact h
  have hpre : ∀ (ts : AddrTimestamps F), (∀ l ∈ ts.addrs, l.length = 2 ^ k) → (∀ l ∈ ts.readTs, l.length = 2 ^ k) →
      ts.auditTs.length = 2 ^ lm →
      preProve opsR memR ts = some (ts.addrs.map (mle · opsR), ts.readTs.map (mle · opsR), mle ts.auditTs memR) := by
    intro ts h1 h2 h3
    unfold preProve
    rw [hat _ h1, hat _ h2, evalValue_eq _ _ (by rw [hrm, h3])]
    rfl
  generalize hall : padWith (padTo ([e0, e1, e2] ++ [f0, f1, f2]).flatten.length) 0 ([e0, e1, e2] ++ [f0, f1, f2]).flatten = eAll
    at *
  unfold hashLayerProve at h
  rw [hat [e0, e1, e2] fun l hl => hE l (List.mem_append_left _ hl), hat [f0, f1, f2] fun l hl => hE l (List.mem_append_right _ hl),
    hpre _ he.rowA.2 he.rowT.2 he.rowE, hpre _ he.colA.2 he.colT.2 he.colE, hat _ he.vals.2, hA, hU, hB, hW, hV] at h
  obtain ⟨_, _, h0, h⟩ := bind_inv h
  obtain rfl := say_inv h0
  obtain ⟨dr, _, h0, h⟩ := bind_inv h
  obtain ⟨e, rfl⟩ := orPanic_inv h0
  have hdr := Option.some.inj e
  obtain ⟨dcl, _, h0, h⟩ := bind_inv h
  obtain ⟨e, rfl⟩ := orPanic_inv h0
  have hdcl := Option.some.inj e
  obtain ⟨_, _, h0, h⟩ := bind_inv h
  obtain ⟨_, rfl⟩ := ensure_inv h0
  obtain ⟨_, _, h0, h⟩ := bind_inv h
  obtain rfl := say_inv h0
  obtain ⟨⟨cs1, x1⟩, t7, k1, h⟩ := bind_inv h
  simp only [] at h
  obtain ⟨d1, t8, o1, h⟩ := bind_inv h
  obtain ⟨pr, _, h0, h⟩ := bind_inv h
  obtain ⟨e, rfl⟩ := orPanic_inv h0
  have hpr := Option.some.inj e
  obtain ⟨pc, _, h0, h⟩ := bind_inv h
  obtain ⟨e, rfl⟩ := orPanic_inv h0
  have hpc := Option.some.inj e
  obtain ⟨pv, _, h0, h⟩ := bind_inv h
  obtain ⟨e, rfl⟩ := orPanic_inv h0
  have hpv := Option.some.inj e
  obtain ⟨⟨cs2, x2⟩, t9, k2, h⟩ := bind_inv h
  simp only [] at h
  obtain ⟨d2, t10, o2, h⟩ := bind_inv h
  obtain ⟨⟨cs3, x3⟩, t11, k3, h⟩ := bind_inv h
  simp only [] at h
  obtain ⟨d3, t12, o3, h⟩ := bind_inv h
  obtain ⟨e, rfl⟩ := pure_inv h
  obtain ⟨z1, _⟩ := fold_step ch _ _ _ _ _ _ _ k1
  obtain ⟨z2, _⟩ := fold_step ch _ _ _ _ _ _ _ k2
  obtain ⟨z3, _⟩ := fold_step ch _ _ _ _ _ _ _ k3
  rw [← hdr, ← hdcl] at z1
  rw [← hpr, ← hpc, ← hpv] at z2
  rw [← hpr, ← hpc] at z3
  have o1' := open_step ch params.derefs hdp _ cs1 opsR _ x1 (by
    rw [z1, ← hall]
    unfold padWith
    rw [mle_flatten ([e0, e1, e2] ++ [f0, f1, f2]) cs1 opsR (by rw [hro]; exact hE), List.map_append]) r1 dc hdc d1 _ _ o1
  have o2' := open_step ch params.ops hop _ cs2 opsR _ x2 (by
    rw [z2, he.ops_at cs2 opsR hro]
    simp only [EncodeMemory.lists, hA, hB, hU, hW, hV, List.map_append]) r2 _ he.commitOps d2 _ _ o2
  have o3' := open_step ch params.mem hmp _ cs3 memR _ x3 (by rw [z3, he.mem_at cs3 memR hrm]) r3 _ he.commitMem d3 _ _ o3
  subst e
  refine hashVerify_of ch params _ rows cols opsR memR g1 g2 row col dotp commit dc (by rw [hdotp]; rfl) (by rw [← hdr]; rfl)
    (by rw [← hdcl]; rfl) (by rw [← hpv]; rfl) ?_ cs1 cs2 cs3 x1 x2 x3 _ _ _ _ _ _ _ k1 o1' k2 o2' k3 o3' ?_ ?_
  · intro i hi
    have : i = 0 ∨ i = 1 ∨ i = 2 := by omega
    simp only [hdotp, ← hdr, ← hdcl, ← hpv]
    rcases this with rfl | rfl | rfl <;> simp
  · simp only [← hpr, ← hdr]; exact B1
  · simp only [← hpc, ← hdcl]; exact B2

/-- An evaluation argument that the prover finishes is accepted. -/
theorem sparse_complete (h2 : (2 : F) ≠ 0) (h3 : (3 : F) ≠ 0) (ch : Oracle F G) (params : EvalsParams G)
    (hop : params.ops.genN.h = params.ops.gen1.h) (hmp : params.mem.genN.h = params.mem.gen1.h)
    (hdp : params.derefs.genN.h = params.derefs.gen1.h)
    (enc : EncodeMemory F) (commit : EncodeCommit G) (k lm : Nat) (he : EncOk params enc commit k lm)
    (rx ry : List F) (hr : max rx.length ry.length = lm) (evals : F × F × F) (r1 r2 r3 : OpenRand F)
    (tr tr' : Transcript F G) (proof : EvalsProof F G)
    (hp : sparseEvalProve ch params rx ry evals enc r1 r2 r3 tr = .ok (proof, tr')) :
    sparseEvalVerify ch params proof commit rx ry evals tr = .ok ((), tr') := by
  obtain ⟨hrows, hcols⟩ := equalize_length rx ry lm hr
  unfold sparseEvalProve at hp
  obtain ⟨_, _, h0, hp⟩ := bind_inv hp
  obtain rfl := say_inv h0
  simp only [] at hp
  obtain ⟨eRow, _, h0, hp⟩ := bind_inv hp
  obtain ⟨hER, rfl⟩ := orPanic_inv h0
  obtain ⟨eCol, _, h0, hp⟩ := bind_inv hp
  obtain ⟨hEC, rfl⟩ := orPanic_inv h0
  obtain ⟨dc, td, hdc, hp⟩ := bind_inv hp
  obtain rfl := pad_commit _ _ _ _ _ hdc
  obtain ⟨_, _, h0, hp⟩ := bind_inv hp
  obtain rfl := say_inv h0
  obtain ⟨g1, ta, ha, hp⟩ := bind_inv hp
  obtain ⟨g2, tb, hb, hp⟩ := bind_inv hp
  obtain ⟨row, _, h0, hp⟩ := bind_inv hp
  obtain ⟨hrow, rfl⟩ := orPanic_inv h0
  obtain ⟨col, _, h0, hp⟩ := bind_inv hp
  obtain ⟨hcol, rfl⟩ := orPanic_inv h0
  obtain ⟨⟨layer, opsR, memR⟩, tl, hlay, hp⟩ := bind_inv hp
  simp only [] at hp
  obtain ⟨hash, th, hhash, hp⟩ := bind_inv hp
  obtain ⟨e, rfl⟩ := pure_inv hp
  -- shapes
  obtain ⟨sR1, sR2⟩ := derefs_shape _ _ (2 ^ k) _ hER fun l hl => (he.rowI.2 l hl).1
  obtain ⟨sC1, sC2⟩ := derefs_shape _ _ (2 ^ k) _ hEC fun l hl => (he.colI.2 l hl).1
  rw [he.rowI.1] at sR1
  rw [he.colI.1] at sC1
  have tri : ∀ (A T E : List (List F)), (∀ l ∈ A, l.length = 2 ^ k) → (∀ l ∈ T, l.length = 2 ^ k) → (∀ l ∈ E, l.length = 2 ^ k) →
      ∀ x ∈ triples A T E, x.1.1.length = 2 ^ k ∧ x.1.2.length = 2 ^ k ∧ x.2.length = 2 ^ k := by
    intro A T E h1 h2 h3 x hx
    obtain ⟨hx1, hx2⟩ := List.of_mem_zip (show (x.1, x.2) ∈ _ from hx)
    obtain ⟨hx3, hx4⟩ := List.of_mem_zip (show (x.1.1, x.1.2) ∈ _ from hx1)
    exact ⟨h1 _ hx3, h2 _ hx4, h3 _ hx2⟩
  have triR := tri _ _ _ he.rowA.2 he.rowT.2 sR2
  have triC := tri _ _ _ he.colA.2 he.colT.2 sC2
  obtain ⟨p1, p2, p3, p4, p5, p6⟩ := memoryChecking_inv _ _ _ _ _ _ _ row (by rw [he.rowE, evalEq_length, hrows])
    (fun x hx => by obtain ⟨h1, h2, h3⟩ := triR x hx; rw [h1, h2, h3]; exact ⟨rfl, rfl⟩) hrow
  obtain ⟨q1, q2, q3, q4, _, _⟩ := memoryChecking_inv _ _ _ _ _ _ _ col (by rw [he.colE, evalEq_length, hcols])
    (fun x hx => by obtain ⟨h1, h2, h3⟩ := triC x hx; rw [h1, h2, h3]; exact ⟨rfl, rfl⟩) hcol
  obtain ⟨e0, e1, e2, rfl⟩ := List.length_eq_three.1 sR1
  obtain ⟨f0, f1, f2, rfl⟩ := List.length_eq_three.1 sC1
  obtain ⟨a0, a1, a2, hA⟩ := List.length_eq_three.1 he.rowA.1
  obtain ⟨b0, b1, b2, hB⟩ := List.length_eq_three.1 he.colA.1
  obtain ⟨u0, u1, u2, hU⟩ := List.length_eq_three.1 he.rowT.1
  obtain ⟨w0, w1, w2, hW⟩ := List.length_eq_three.1 he.colT.1
  obtain ⟨v0, v1, v2, hV⟩ := List.length_eq_three.1 he.vals.1
  rw [hA, hU] at p2 p3 p5 triR
  rw [hB, hW] at q2 q3 triC
  have hk : 0 < k := by
    have h1 := p5 ((a0, u0), e0) (by simp [triples])
    rw [(triR ((a0, u0), e0) (by simp [triples])).1] at h1
    by_contra hk0
    obtain rfl : k = 0 := by omega
    norm_num at h1
  have hlm : 0 < lm := by
    rw [evalEq_length, hrows] at p6
    by_contra hk0
    have : lm = 0 := by omega
    rw [this] at p6
    norm_num at p6
  have hinit : ∀ (r a : List F), r.length = lm → a.length = 2 ^ lm → (initList g1 g2 (evalEq r)).length = 2 ^ lm ∧
      (auditList g1 g2 (evalEq r) a).length = 2 ^ lm := by
    intro r a h ha
    constructor <;> apply hashList_length <;> simp [evalEq_length, h, ha]
  obtain ⟨i1, i2⟩ := hinit _ _ hrows he.rowE
  obtain ⟨i3, i4⟩ := hinit _ _ hcols he.colE
  have hread : ∀ x : (List F × List F) × List F, x.1.1.length = 2 ^ k ∧ x.1.2.length = 2 ^ k ∧ x.2.length = 2 ^ k →
      (readList g1 g2 x).length = 2 ^ k ∧ (writeList g1 g2 x).length = 2 ^ k := by
    intro x ⟨h1, h2, h3⟩
    constructor <;> apply hashList_length <;> simp [h1, h2, h3]
  obtain ⟨hro, hrm, hpv⟩ := product_complete h2 h3 ch k lm hk hlm _ _ _ _ _ _ _ _ row col p1 p2 p3 p4 q1 q2 q3 q4
    (by simp [triples]) (by
      intro l hl
      simp only [List.mem_append, List.mem_map] at hl
      rcases hl with ((⟨x, hx, rfl⟩ | ⟨x, hx, rfl⟩) | ⟨x, hx, rfl⟩) | ⟨x, hx, rfl⟩
      exacts [(hread x (triR x hx)).1, (hread x (triR x hx)).2, (hread x (triC x hx)).1, (hread x (triC x hx)).2]) (by
      intro l hl
      simp only [List.mem_cons, List.not_mem_nil, or_false] at hl
      rcases hl with rfl | rfl | rfl | rfl
      exacts [i1, i2, i3, i4]) enc.vals _ _ he.vals.1 rfl rfl (by
      intro d hd
      obtain ⟨hx1, hx2⟩ := List.of_mem_zip (show (d.1, d.2) ∈ _ from hd)
      obtain ⟨hx3, hx4⟩ := List.of_mem_zip (show (d.2.1, d.2.2) ∈ _ from hx2)
      exact ⟨sR2 _ hx1, sC2 _ hx3, he.vals.2 _ hx4⟩) _ rfl _ _ _ _ _ hlay
  have lA := he.rowA.2
  have lB := he.colA.2
  have lU := he.rowT.2
  have lW := he.colT.2
  rw [hA] at lA
  rw [hB] at lB
  rw [hU] at lU
  rw [hW] at lW
  have B1 := behind_ok g1 g2 (equalizeLength rx ry).1 opsR memR enc.row.auditTs a0 a1 a2 u0 u1 u2 e0 e1 e2 (by rw [hrows, hrm])
    (by rw [he.rowE, hrm]) (by
      rw [hro, show [a0, a1, a2, u0, u1, u2, e0, e1, e2] = [a0, a1, a2] ++ [u0, u1, u2] ++ [e0, e1, e2] from rfl]
      intro l hl
      simp only [List.mem_append] at hl
      rcases hl with (hl | hl) | hl
      exacts [lA l hl, lU l hl, sR2 l hl])
  have B2 := behind_ok g1 g2 (equalizeLength rx ry).2 opsR memR enc.col.auditTs b0 b1 b2 w0 w1 w2 f0 f1 f2 (by rw [hcols, hrm])
    (by rw [he.colE, hrm]) (by
      rw [hro, show [b0, b1, b2, w0, w1, w2, f0, f1, f2] = [b0, b1, b2] ++ [w0, w1, w2] ++ [f0, f1, f2] from rfl]
      intro l hl
      simp only [List.mem_append] at hl
      rcases hl with (hl | hl) | hl
      exacts [lB l hl, lW l hl, sC2 l hl])
  rw [hV] at hpv
  have hh := hash_complete ch params hop hmp hdp enc commit k lm he _ _ opsR memR hro hrm a0 a1 a2 u0 u1 u2 e0 e1 e2 b0 b1 b2 w0 w1 w2
    f0 f1 f2 v0 v1 v2 hA hU hB hW hV (by
      intro l hl
      rcases List.mem_append.1 hl with hl | hl
      exacts [sR2 l hl, sC2 l hl]) dc ⟨_, _, hdc⟩ g1 g2 _ _ _ rfl B1 B2 r1 r2 r3 _ _ _ hhash
  subst e
  rw [← he.n, ← he.m] at hpv
  refine sparseVerify_of ch params _ commit rx ry evals tr _ _ _ _ _ _ _ _ (by rw [hrows, he.m]) g1 g2 tb ?_ hpv ?_ hh
  · rw [bind_ok ha, bind_ok hb]
    rfl
  · refine ⟨rfl, ?_, rfl⟩
    simp [triples]

/-- The last steps of `verify_snark_proof`. -/
theorem verifySnark_of (ch : Oracle F G) (satParams : SatParams G) (params : EvalsParams G) (s : Inst F) (inputs : List F)
    (proof : SnarkProof F G) (commit : EncodeCommit G) (r1csHash paramsHash encodeHash : F) (rx ry : List F)
    (t1 t2 : Transcript F G)
    (hsat : satVerify ch satParams s inputs proof.sat proof.evals (snarkStart r1csHash paramsHash encodeHash) =
      .ok ((rx, ry), t1))
    (hsp : sparseEvalVerify ch params proof.proof commit rx ry proof.evals
      (t1 ++ [.fr "Ar_claim" proof.evals.1] ++ [.fr "Br_claim" proof.evals.2.1] ++ [.fr "Cr_claim" proof.evals.2.2] ++
        [.u64 "n" commit.n] ++ [.u64 "m" commit.m] ++ [.pts "encode_mem_commit" commit.mem] ++
        [.pts "encode_ops_commit" commit.ops]) = .ok ((), t2)) :
    verifySnark ch satParams params s inputs proof commit r1csHash paramsHash encodeHash = .ok () := by
  unfold verifySnark
  simp only []
  rw [show ([.fr "Spartan SNARK proof: r1cs_hash" r1csHash, .fr "params_hash" paramsHash,
    .fr "encode_hash" encodeHash] : Transcript F G) = snarkStart r1csHash paramsHash encodeHash from rfl]
  rw [bind_ok hsat]
  simp only []
  have e : ∀ (m : Msg F G) (f : Unit → Vf F G Unit) (t : Transcript F G), (say m >>= f) t = f () (t ++ [m]) := fun _ _ _ => rfl
  rw [e, e, e, e, e, e, e, hsp]

/-! ### The prover finishes -/

theorem memoryChecking_claims (lists readTs es : List (List F)) (mem auditTs : List F) (g1 g2 : F) (L : MemoryLayer F)
    (h : memoryChecking lists mem readTs auditTs es g1 g2 = some L) :
    ∃ c, claimsOf L = some c ∧ c.init * c.write.prod = c.read.prod * c.audit := by
  unfold memoryChecking at h
  split_ifs at h with hc
  simp only [Option.bind_eq_bind, Option.bind_eq_some_iff] at h
  obtain ⟨_, _, _, _, _, _, _, _, i, h1, r, h2, w, h3, a, h4, h⟩ := h
  split_ifs at h with he
  obtain rfl := Option.some.inj h
  refine ⟨⟨i, r, w, a⟩, ?_, he⟩
  unfold claimsOf
  simp only [h1, h2, h3, h4]
  rfl

theorem derefs_some (mem : List F) (lists : List (List Nat)) (h : ∀ l ∈ lists, ∀ a ∈ l, a < mem.length) :
    derefs mem lists = some (lists.map (readVals mem)) := by
  unfold derefs
  refine mapM_some _ _ _ fun l hl => ?_
  refine mapM_some _ _ _ fun a ha => ?_
  rw [List.getElem?_eq_getElem (h l hl a ha), List.getD_eq_getElem _ _ (h l hl a ha)]

/-- The product layer finishes when the dot products have the claimed values. -/
theorem product_runs (h2 : (2 : F) ≠ 0) (h3 : (3 : F) ≠ 0) (ch : Oracle F G) (k lm : Nat) (hk : 0 < k) (hlm : 0 < lm)
    (rR rW cR cW : List (List F)) (rI rA cI cA : List F) (row col : MemoryLayer F)
    (p1 : row.initProd = constructProductCircuit rI) (p2 : row.readProd = rR.map constructProductCircuit)
    (p3 : row.writeProd = rW.map constructProductCircuit) (p4 : row.auditProd = constructProductCircuit rA)
    (q1 : col.initProd = constructProductCircuit cI) (q2 : col.readProd = cR.map constructProductCircuit)
    (q3 : col.writeProd = cW.map constructProductCircuit) (q4 : col.auditProd = constructProductCircuit cA)
    (hlen : rR.length = 3) (rowC : ∃ c, claimsOf row = some c ∧ c.init * c.write.prod = c.read.prod * c.audit)
    (colC : ∃ c, claimsOf col = some c ∧ c.init * c.write.prod = c.read.prod * c.audit)
    (hops : ∀ l ∈ rR ++ rW ++ cR ++ cW, l.length = 2 ^ k) (hmem : ∀ l ∈ [rI, rA, cI, cA], l.length = 2 ^ lm)
    (vals eRow eCol : List (List F)) (hv : vals.length = 3) (hr : eRow.length = 3) (hc : eCol.length = 3)
    (hfull : ∀ d ∈ eRow.zip (eCol.zip vals), d.1.length = 2 ^ k ∧ d.2.1.length = 2 ^ k ∧ d.2.2.length = 2 ^ k)
    (evals : List F) (he : evals = (eRow.zip (eCol.zip vals)).map sumDotp) (tr : Transcript F G) :
    Runs (productLayerProve ch vals eRow eCol row col evals) tr fun out _ => out.2.1.length = k ∧ out.2.2.length = lm := by
  have hfl : (eRow.zip (eCol.zip vals)).length = 3 := by simp [hr, hc, hv]
  have hel : evals.length = 3 := by rw [he, List.length_map, hfl]
  obtain ⟨rC, rC1, rC2⟩ := rowC
  obtain ⟨cC, cC1, cC2⟩ := colC
  unfold productLayerProve
  refine Runs.say.bind fun _ _ _ => ?_
  refine (Runs.orPanic rC1).bind fun rC t e => ?_
  obtain ⟨rfl, rfl⟩ := e
  obtain ⟨t1, m1⟩ := memClaims_ok "row" rC rC2 t
  refine (runs_of m1).bind fun _ _ _ => ?_
  refine (Runs.orPanic cC1).bind fun cC t e => ?_
  obtain ⟨rfl, rfl⟩ := e
  obtain ⟨t2, m2⟩ := memClaims_ok "col" cC cC2 t
  refine (runs_of m2).bind fun _ _ _ => ?_
  refine (Runs.ensure (by simp [hr, hel])).bind fun _ _ _ => ?_
  refine (Runs.ensure (by simp [hr, hc])).bind fun _ _ _ => ?_
  refine (Runs.ensure (by simp [hr, hv])).bind fun _ _ _ => ?_
  simp only []
  generalize eRow.zip (eCol.zip vals) = full at *
  refine (Runs.ensure (by
    rw [List.all_eq_true]
    intro d hd
    obtain ⟨x1, x2, x3⟩ := hfull d hd
    simp [x1, x2, x3])).bind fun _ t _ => ?_
  obtain ⟨t3, hd⟩ := dotpClaims_ok ((full.map halfDotp).map fun h => sumDotp h.1) ((full.map halfDotp).map fun h => sumDotp h.2)
    evals (by simp) (by rw [hel]; simp [hfl]) (by
      intro i hi
      simp only [List.length_map] at hi
      rw [List.getD_eq_getElem _ _ (by simpa using hi), List.getD_eq_getElem _ _ (by simpa using hi),
        List.getD_eq_getElem _ _ (by rw [hel, ← hfl]; exact hi)]
      subst he
      simp only [List.getElem_map]
      obtain ⟨x1, x2, x3⟩ := hfull _ (List.getElem_mem hi)
      exact half_sum _ _ x1 x2 x3) t
  refine (runs_of hd).bind fun _ _ _ => ?_
  have hhl : (full.map halfDotp).flatMap (fun h => [h.1, h.2]) = halfList full := by
    rw [List.flatMap_map]; rfl
  rw [p2, p3, q2, q3, ← List.map_append, ← List.map_append, ← List.map_append, hhl]
  refine (circuitEval_complete h2 h3 ch k hk _ (by
    intro e
    have := congrArg List.length e
    simp [hlen] at this) hops full hfull _).bind fun out _ ho => ?_
  obtain ⟨opsP, opsR⟩ := out
  simp only []
  rw [p1, p4, q1, q4]
  refine (circuitEval_complete h2 h3 ch lm hlm [rI, rA, cI, cA] (by simp) hmem [] (by simp) _).bind fun out _ hm => ?_
  obtain ⟨memP, memR⟩ := out
  exact Runs.pure ⟨ho.1, hm.1⟩

/-- Enough random scalars for an opening of a list of length `2^m`. -/
def OpenRand.Enough (r : OpenRand F) (m : Nat) : Prop := m - m / 2 ≤ r.bullet.length

theorem open_step_runs (ch : Oracle F G) (hch : ∀ t, ch t ≠ 0) (pc : PcParams G) (m : Nat) (hp : CanOpen pc m) (label : String)
    (cs r poly : List F) (hm : (cs ++ r).length = m) (hl : poly.length = 2 ^ m) (e : F) (rand : OpenRand F)
    (hr : rand.Enough m) (tr : Transcript F G) :
    Runs (openProve ch pc label cs r e poly rand) tr fun _ _ => True := by
  obtain ⟨proof, tr', h⟩ := open_runs ch hch pc label cs r poly e (by rw [hm, hl]) (by rw [hm]; exact hp.2.1)
    hp.2.2 rand (by rw [hm]; exact hr) tr
  exact ⟨_, _, h, trivial⟩

theorem fold_runs (ch : Oracle F G) (l1 l2 : String) (evals : List F) (tr : Transcript F G) :
    Runs (foldEvals ch l1 l2 evals) tr fun out _ => out.1.length = Nat.clog 2 evals.length := by
  obtain ⟨cs', t, h', hl⟩ := foldEvals_ok ch l1 l2 evals tr
  exact ⟨_, _, h', hl⟩

theorem hash_runs (ch : Oracle F G) (hch : ∀ t, ch t ≠ 0) (params : EvalsParams G) (k lm : Nat)
    (hop : CanOpen params.ops (4 + k)) (hmp : CanOpen params.mem (1 + lm)) (hdp : CanOpen params.derefs (3 + k))
    (enc : EncodeMemory F) (commit : EncodeCommit G) (he : EncOk params enc commit k lm)
    (opsR memR : List F) (hro : opsR.length = k) (hrm : memR.length = lm) (eRow eCol : List (List F))
    (hE1 : eRow.length = 3) (hE2 : eCol.length = 3) (hE : ∀ l ∈ eRow ++ eCol, l.length = 2 ^ k) (eAll : List F)
    (hall : eAll.length = 2 ^ (3 + k)) (r1 r2 r3 : OpenRand F) (hr1 : r1.Enough (3 + k)) (hr2 : r2.Enough (4 + k))
    (hr3 : r3.Enough (1 + lm)) (tr : Transcript F G) :
    Runs (hashLayerProve ch params enc opsR memR eRow eCol eAll r1 r2 r3) tr fun _ _ => True := by
  have hat : ∀ l : List (List F), (∀ x ∈ l, x.length = 2 ^ k) → (l.mapM fun l => evalValue l opsR) = some (l.map (mle · opsR)) := by
    intro l h
    apply evals_at
    rw [hro]
    exact h
  have hpre : ∀ (ts : AddrTimestamps F), (∀ l ∈ ts.addrs, l.length = 2 ^ k) → (∀ l ∈ ts.readTs, l.length = 2 ^ k) →
      ts.auditTs.length = 2 ^ lm →
      preProve opsR memR ts = some (ts.addrs.map (mle · opsR), ts.readTs.map (mle · opsR), mle ts.auditTs memR) := by
    intro ts h1 h2 h3
    unfold preProve
    rw [hat _ h1, hat _ h2, evalValue_eq _ _ (by rw [hrm, h3])]
    rfl
  have c6 : Nat.clog 2 6 = 3 := by decide
  have c8 : Nat.clog 2 8 = 3 := by decide
  have c15 : Nat.clog 2 15 = 4 := by decide
  unfold hashLayerProve
  refine Runs.say.bind fun _ _ _ => ?_
  refine (Runs.orPanic (hat eRow fun l hl => hE l (List.mem_append_left _ hl))).bind fun _ _ e => ?_
  obtain ⟨rfl, rfl⟩ := e
  refine (Runs.orPanic (hat eCol fun l hl => hE l (List.mem_append_right _ hl))).bind fun _ _ e => ?_
  obtain ⟨rfl, rfl⟩ := e
  refine (Runs.ensure (by
    rw [hall, Nat.clog_pow 2 _ (by norm_num), hro]
    simp only [List.length_append, List.length_map, hE1, hE2]
    rw [show 3 + 3 = 6 from rfl, show padTo 6 = 8 by decide, c8]
    simp [add_comm])).bind fun _ _ _ => ?_
  refine Runs.say.bind fun _ _ _ => ?_
  refine (fold_runs ch _ _ _ _).bind fun out _ ho => ?_
  obtain ⟨cs1, x1⟩ := out
  simp only [List.length_append, List.length_map, hE1, hE2] at ho ⊢
  refine (open_step_runs ch hch _ _ hdp _ cs1 opsR eAll (by rw [List.length_append, ho, hro]; rw [show 3 + 3 = 6 from rfl, c6])
    hall _ r1 hr1 _).bind fun _ _ _ => ?_
  refine (Runs.orPanic (hpre _ he.rowA.2 he.rowT.2 he.rowE)).bind fun _ _ e => ?_
  obtain ⟨rfl, rfl⟩ := e
  refine (Runs.orPanic (hpre _ he.colA.2 he.colT.2 he.colE)).bind fun _ _ e => ?_
  obtain ⟨rfl, rfl⟩ := e
  refine (Runs.orPanic (hat _ he.vals.2)).bind fun _ _ e => ?_
  obtain ⟨rfl, rfl⟩ := e
  refine (fold_runs ch _ _ _ _).bind fun out _ ho => ?_
  obtain ⟨cs2, x2⟩ := out
  simp only [List.length_append, List.length_map, he.rowA.1, he.rowT.1, he.colA.1, he.colT.1, he.vals.1] at ho ⊢
  refine (open_step_runs ch hch _ _ hop _ cs2 opsR enc.ops (by
    rw [List.length_append, ho, hro]; rw [show 3 + 3 + 3 + 3 + 3 = 15 from rfl, c15]) he.ops_len _ r2 hr2 _).bind fun _ _ _ => ?_
  refine (fold_runs ch _ _ _ _).bind fun out _ ho => ?_
  obtain ⟨cs3, x3⟩ := out
  simp only [List.length_cons, List.length_nil] at ho ⊢
  refine (open_step_runs ch hch _ _ hmp _ cs3 memR enc.mem (by
    rw [List.length_append, ho, hrm]; rw [show 0 + 1 + 1 = 2 from rfl, show Nat.clog 2 2 = 1 by decide]) he.mem_len _ r3 hr3
      _).bind fun _ _ _ => ?_
  exact Runs.pure trivial

theorem memory_honest (k lm : Nat)
    (lists : List (List Nat)) (ts : AddrTimestamps F) (mem : List F) (hml : mem.length = 2 ^ lm) (hk : 0 < k) (hlm : 0 < lm)
    (hI : ∀ l ∈ lists, l.length = 2 ^ k ∧ ∀ a ∈ l, a < 2 ^ lm)
    (hH : memoryInTheHead lists (2 ^ k) (2 ^ lm) = some ts) (g1 g2 : F) :
    ∃ L, memoryChecking ts.addrs mem ts.readTs ts.auditTs (lists.map (readVals mem)) g1 g2 = some L := by
  have p2 : ∀ n, 0 < n → 2 ≤ 2 ^ n := fun n hn => by
    calc 2 = 2 ^ 1 := rfl
      _ ≤ 2 ^ n := Nat.pow_le_pow_right (by norm_num) hn
  obtain ⟨ts', h1, h2⟩ := C49_honest lists (2 ^ k) (fun l hl => (hI l hl).1) mem
    (fun l hl a ha => by rw [hml]; exact (hI l hl).2 a ha) (p2 k hk) (by rw [hml]; exact p2 lm hlm)
  rw [hml, hH] at h1
  obtain rfl := Option.some.inj h1
  exact Option.isSome_iff_exists.1 (h2 g1 g2)

set_option maxHeartbeats 800000 in
/-- The evaluation argument finishes on the encoding of an instance, with the evaluations of its matrices. -/
theorem sparse_runs (h2 : (2 : F) ≠ 0) (h3 : (3 : F) ≠ 0) (ch : Oracle F G) (hch : ∀ t, ch t ≠ 0) (params : EvalsParams G)
    (s : Inst F) (hf : s.Fits) (hn : 2 ≤ s.entries) (hop : CanOpen params.ops (4 + Nat.clog 2 s.entries))
    (hmp : CanOpen params.mem (1 + s.memVars)) (hdp : CanOpen params.derefs (3 + Nat.clog 2 s.entries))
    (enc : EncodeMemory F) (commit : EncodeCommit G) (tr0 tr0' : Transcript F G)
    (henc : encode params s tr0 = .ok ((enc, commit), tr0')) (rx ry : List F)
    (hx : rx.length = Nat.clog 2 s.numConstraints) (hy : ry.length = Nat.clog 2 s.t + 1) (a b c : F)
    (ha : evaluateMle s.a rx ry = some a) (hb : evaluateMle s.b rx ry = some b) (hc : evaluateMle s.c rx ry = some c)
    (r1 r2 r3 : OpenRand F) (hr1 : r1.Enough (3 + Nat.clog 2 s.entries)) (hr2 : r2.Enough (4 + Nat.clog 2 s.entries))
    (hr3 : r3.Enough (1 + s.memVars)) (tr : Transcript F G) :
    Runs (sparseEvalProve ch params rx ry (a, b, c) enc r1 r2 r3) tr fun _ _ => True := by
  obtain ⟨he, _⟩ := encode_ok params s enc commit _ _ henc
  obtain ⟨k, hkd⟩ : ∃ k, k = Nat.clog 2 s.entries := ⟨_, rfl⟩
  obtain ⟨lm, hlmd⟩ : ∃ lm, lm = s.memVars := ⟨_, rfl⟩
  have hk : 0 < k := by rw [hkd]; exact Nat.clog_pos (by norm_num) hn
  have hlm : 0 < lm := by rw [hlmd]; exact lt_of_lt_of_le (Nat.succ_pos _) (le_max_right _ _)
  have hmax : max rx.length ry.length = lm := by rw [hx, hy, hlmd]; rfl
  obtain ⟨hrows, hcols⟩ := equalize_length rx ry lm hmax
  have hML : (evalEq (equalizeLength rx ry).1).length = 2 ^ lm := by rw [evalEq_length, hrows]
  have hMC : (evalEq (equalizeLength rx ry).2).length = 2 ^ lm := by rw [evalEq_length, hcols]
  -- the three dot products
  have hdot := encode_dotp params s hf enc commit _ _ henc rx ry hx hy a b c ha hb hc
  rw [← hkd, ← hlmd] at he
  rw [← hkd] at hop hdp hr1 hr2
  rw [← hlmd] at hmp hr3
  clear henc ha hb hc
  -- the values read
  obtain ⟨eRow, hER⟩ : ∃ e, e = enc.row.addrIndex.map (readVals (evalEq (equalizeLength rx ry).1)) := ⟨_, rfl⟩
  obtain ⟨eCol, hEC⟩ : ∃ e, e = enc.col.addrIndex.map (readVals (evalEq (equalizeLength rx ry).2)) := ⟨_, rfl⟩
  have dR : derefs (evalEq (equalizeLength rx ry).1) enc.row.addrIndex = some eRow := by
    rw [hER]; exact derefs_some _ _ fun l hl a ha => by rw [hML]; exact (he.rowI.2 l hl).2 a ha
  have dC : derefs (evalEq (equalizeLength rx ry).2) enc.col.addrIndex = some eCol := by
    rw [hEC]; exact derefs_some _ _ fun l hl a ha => by rw [hMC]; exact (he.colI.2 l hl).2 a ha
  rw [← hER, ← hEC] at hdot
  obtain ⟨sR1, sR2⟩ := derefs_shape _ _ (2 ^ k) _ dR fun l hl => (he.rowI.2 l hl).1
  obtain ⟨sC1, sC2⟩ := derefs_shape _ _ (2 ^ k) _ dC fun l hl => (he.colI.2 l hl).1
  rw [he.rowI.1] at sR1
  rw [he.colI.1] at sC1
  unfold sparseEvalProve
  refine Runs.say.bind fun _ _ _ => ?_
  simp only []
  refine (Runs.orPanic dR).bind fun eRow t1 e => ?_
  obtain ⟨rfl, rfl⟩ := e
  refine (Runs.orPanic dC).bind fun eCol t1 e => ?_
  obtain ⟨rfl, rfl⟩ := e
  have hEL : ∀ l ∈ eRow ++ eCol, l.length = 2 ^ k := by
    intro l hl
    rcases List.mem_append.1 hl with h | h
    exacts [sR2 l h, sC2 l h]
  have hflat : (eRow ++ eCol).flatten.length = 6 * 2 ^ k := by
    rw [flatten_length_of _ _ hEL, List.length_append, sR1, sC1]
  have hpad : padTo (eRow ++ eCol).flatten.length = 2 ^ (3 + k) := by
    unfold padTo
    rw [hflat, clog_mul_pow _ _ (by norm_num), show Nat.clog 2 6 = 3 by decide]
  have hall : (padWith (padTo (eRow ++ eCol).flatten.length) 0 (eRow ++ eCol).flatten).length = 2 ^ (3 + k) := by
    rw [padWith_length _ _ _ (padTo_ge _), hpad]
  generalize padWith (padTo (eRow ++ eCol).flatten.length) 0 (eRow ++ eCol).flatten = eAll at hall ⊢
  obtain ⟨dc, hdc⟩ := packPlain_ok params.derefs eAll _ hall t1
  refine (runs_of hdc).bind fun _ _ _ => ?_
  refine Runs.say.bind fun _ _ _ => ?_
  refine Runs.challenge.bind fun g1 _ _ => ?_
  refine Runs.challenge.bind fun g2 _ _ => ?_
  obtain ⟨row, hrow⟩ := memory_honest k lm _ _ _ hML hk hlm he.rowI.2 he.rowH g1 g2
  obtain ⟨col, hcol⟩ := memory_honest k lm _ _ _ hMC hk hlm he.colI.2 he.colH g1 g2
  rw [← hER] at hrow
  rw [← hEC] at hcol
  refine (Runs.orPanic hrow).bind fun _ _ e => ?_
  obtain ⟨rfl, _⟩ := e
  refine (Runs.orPanic hcol).bind fun _ _ e => ?_
  obtain ⟨rfl, _⟩ := e
  have tri : ∀ (A T E : List (List F)), (∀ l ∈ A, l.length = 2 ^ k) → (∀ l ∈ T, l.length = 2 ^ k) → (∀ l ∈ E, l.length = 2 ^ k) →
      ∀ x ∈ triples A T E, x.1.1.length = 2 ^ k ∧ x.1.2.length = 2 ^ k ∧ x.2.length = 2 ^ k := by
    intro A T E h1 h2 h3 x hx
    obtain ⟨hx1, hx2⟩ := List.of_mem_zip (show (x.1, x.2) ∈ _ from hx)
    obtain ⟨hx3, hx4⟩ := List.of_mem_zip (show (x.1.1, x.1.2) ∈ _ from hx1)
    exact ⟨h1 _ hx3, h2 _ hx4, h3 _ hx2⟩
  have triR := tri _ _ _ he.rowA.2 he.rowT.2 sR2
  have triC := tri _ _ _ he.colA.2 he.colT.2 sC2
  obtain ⟨p1, p2, p3, p4, _, _⟩ := memoryChecking_inv _ _ _ _ _ _ _ _ (by rw [he.rowE, hML])
    (fun x hx => by obtain ⟨h1, h2, h3⟩ := triR x hx; rw [h1, h2, h3]; exact ⟨rfl, rfl⟩) hrow
  obtain ⟨q1, q2, q3, q4, _, _⟩ := memoryChecking_inv _ _ _ _ _ _ _ _ (by rw [he.colE, hMC])
    (fun x hx => by obtain ⟨h1, h2, h3⟩ := triC x hx; rw [h1, h2, h3]; exact ⟨rfl, rfl⟩) hcol
  have hinit : ∀ (r a : List F), r.length = lm → a.length = 2 ^ lm → (initList g1 g2 (evalEq r)).length = 2 ^ lm ∧
      (auditList g1 g2 (evalEq r) a).length = 2 ^ lm := by
    intro r a h ha
    constructor <;> apply hashList_length <;> simp [evalEq_length, h, ha]
  obtain ⟨i1, i2⟩ := hinit _ _ hrows he.rowE
  obtain ⟨i3, i4⟩ := hinit _ _ hcols he.colE
  have hread : ∀ x : (List F × List F) × List F, x.1.1.length = 2 ^ k ∧ x.1.2.length = 2 ^ k ∧ x.2.length = 2 ^ k →
      (readList g1 g2 x).length = 2 ^ k ∧ (writeList g1 g2 x).length = 2 ^ k := by
    intro x ⟨h1, h2, h3⟩
    constructor <;> apply hashList_length <;> simp [h1, h2, h3]
  refine (product_runs h2 h3 ch k lm hk hlm _ _ _ _ _ _ _ _ _ _ p1 p2 p3 p4 q1 q2 q3 q4
    (by simp [triples, he.rowA.1, he.rowT.1, sR1]) (memoryChecking_claims _ _ _ _ _ _ _ _ hrow)
    (memoryChecking_claims _ _ _ _ _ _ _ _ hcol) (by
      intro l hl
      simp only [List.mem_append, List.mem_map] at hl
      rcases hl with ((⟨x, hx, rfl⟩ | ⟨x, hx, rfl⟩) | ⟨x, hx, rfl⟩) | ⟨x, hx, rfl⟩
      exacts [(hread x (triR x hx)).1, (hread x (triR x hx)).2, (hread x (triC x hx)).1, (hread x (triC x hx)).2]) (by
      intro l hl
      simp only [List.mem_cons, List.not_mem_nil, or_false] at hl
      rcases hl with rfl | rfl | rfl | rfl
      exacts [i1, i2, i3, i4]) enc.vals _ _ he.vals.1 sR1 sC1 (by
      intro d hd
      obtain ⟨hx1, hx2⟩ := List.of_mem_zip (show (d.1, d.2) ∈ _ from hd)
      obtain ⟨hx3, hx4⟩ := List.of_mem_zip (show (d.2.1, d.2.2) ∈ _ from hx2)
      exact ⟨sR2 _ hx1, sC2 _ hx3, he.vals.2 _ hx4⟩) _ hdot _).bind fun out _ ho => ?_
  obtain ⟨layer, opsR, memR⟩ := out
  simp only [] at ho ⊢
  refine (hash_runs ch hch params k lm hop hmp hdp enc commit he opsR memR ho.1 ho.2 eRow eCol sR1 sC1 hEL eAll hall r1 r2 r3
    hr1 hr2 hr3 _).bind fun _ _ _ => ?_
  exact Runs.pure trivial

/-- The steps of `create_snark_proof`. -/
theorem createSnark_inv (ch : Oracle F G) (satParams : SatParams G) (params : EvalsParams G) (s : Inst F) (cs : CS F)
    (enc : EncodeMemory F) (commit : EncodeCommit G) (rand : SatRand F) (r1 r2 r3 : OpenRand F) (h1 h2 h3 : F)
    (proof : SnarkProof F G) (h : createSnark ch satParams params s cs enc commit rand r1 r2 r3 h1 h2 h3 = .ok proof) :
    ∃ rx ry t1 t2, satProve ch satParams s cs rand (snarkStart h1 h2 h3) = .ok ((proof.sat, rx, ry), t1) ∧
      evaluateMle s.a rx ry = some proof.evals.1 ∧ evaluateMle s.b rx ry = some proof.evals.2.1 ∧
      evaluateMle s.c rx ry = some proof.evals.2.2 ∧
      sparseEvalProve ch params rx ry proof.evals enc r1 r2 r3
        (t1 ++ [.fr "Ar_claim" proof.evals.1] ++ [.fr "Br_claim" proof.evals.2.1] ++ [.fr "Cr_claim" proof.evals.2.2] ++
        [.u64 "n" commit.n] ++ [.u64 "m" commit.m] ++ [.pts "encode_mem_commit" commit.mem] ++
        [.pts "encode_ops_commit" commit.ops]) = .ok (proof.proof, t2) := by
  unfold createSnark at h
  simp only [] at h
  split at h
  · next p t2 he =>
    obtain rfl := Except.ok.inj h
    obtain ⟨⟨sat, rx, ry⟩, t1, hs, he⟩ := bind_inv he
    simp only [] at he
    obtain ⟨a, _, h0, he⟩ := bind_inv he
    obtain ⟨ha, rfl⟩ := orPanic_inv h0
    obtain ⟨b, _, h0, he⟩ := bind_inv he
    obtain ⟨hb, rfl⟩ := orPanic_inv h0
    obtain ⟨c, _, h0, he⟩ := bind_inv he
    obtain ⟨hc, rfl⟩ := orPanic_inv h0
    obtain ⟨_, _, h0, he⟩ := bind_inv he
    obtain rfl := say_inv h0
    obtain ⟨_, _, h0, he⟩ := bind_inv he
    obtain rfl := say_inv h0
    obtain ⟨_, _, h0, he⟩ := bind_inv he
    obtain rfl := say_inv h0
    obtain ⟨_, _, h0, he⟩ := bind_inv he
    obtain rfl := say_inv h0
    obtain ⟨_, _, h0, he⟩ := bind_inv he
    obtain rfl := say_inv h0
    obtain ⟨_, _, h0, he⟩ := bind_inv he
    obtain rfl := say_inv h0
    obtain ⟨_, _, h0, he⟩ := bind_inv he
    obtain rfl := say_inv h0
    obtain ⟨pf, _, hsp, he⟩ := bind_inv he
    obtain ⟨rfl, rfl⟩ := pure_inv he
    exact ⟨rx, ry, _, _, hs, ha, hb, hc, hsp⟩
  · cases h

/-- C81 for circuits none of whose public inputs is zero, or only the last ones, and whose matrices do not all have at most one entry: `encode`
finishes, whatever the prover then outputs for a satisfied circuit is accepted, and it does output a proof when no
challenge is zero.

Partial: the full claim has no condition on the public inputs and on the number of entries and is false
(`C81_violated`, `C81_single`). -/
theorem C81_partial (h2 : (2 : F) ≠ 0) (h3 : (3 : F) ≠ 0) (satParams : SatParams G) (hs1 : satParams.pc.gen1 = satParams.gen1)
    (hh : satParams.pc.genN.h = satParams.gen1.h) (hg1 : satParams.gen1.generators ≠ []) (params : EvalsParams G) (cs : CS F)
    (hc : cs.Closed) (hv : cs.Valid) (inputs : List F) (hin : cs.inputs = 1 :: inputs) (hz : ZerosLast inputs)
    (hn : 2 ≤ (generateR1cs cs).entries)
    (hg : 2 ^ (Nat.clog 2 (generateR1cs cs).t - Nat.clog 2 (generateR1cs cs).t / 2) ≤ satParams.pc.genN.generators.length)
    (hop : CanOpen params.ops (4 + Nat.clog 2 (generateR1cs cs).entries))
    (hmp : CanOpen params.mem (1 + (generateR1cs cs).memVars))
    (hdp : CanOpen params.derefs (3 + Nat.clog 2 (generateR1cs cs).entries))
    (rand : SatRand F) (hr : rand.Shape (Nat.clog 2 (generateR1cs cs).numConstraints) (Nat.clog 2 (generateR1cs cs).t))
    (r1 r2 r3 : OpenRand F) (hr1 : r1.Enough (3 + Nat.clog 2 (generateR1cs cs).entries))
    (hr2 : r2.Enough (4 + Nat.clog 2 (generateR1cs cs).entries)) (hr3 : r3.Enough (1 + (generateR1cs cs).memVars))
    (ch : Oracle F G) (r1csHash paramsHash encodeHash : F) :
    ∃ enc commit, encode params (generateR1cs cs) [] = .ok ((enc, commit), []) ∧
    (∀ proof, createSnark ch satParams params (generateR1cs cs) cs enc commit rand r1 r2 r3 r1csHash paramsHash encodeHash =
      .ok proof →
      verifySnark ch satParams params (generateR1cs cs) inputs proof commit r1csHash paramsHash encodeHash = .ok ()) ∧
    ((∀ t, ch t ≠ 0) → ∃ proof, createSnark ch satParams params (generateR1cs cs) cs enc commit rand r1 r2 r3 r1csHash
      paramsHash encodeHash = .ok proof) := by
  obtain ⟨_, _, hla, hlb, hlc⟩ := C48_generate cs (assign (fun _ => 0) inputs) rfl
  have hf := generate_fits cs hc
  have hsat := generate_sat cs inputs hin hv
  have hmax : max cs.aux.length cs.inputs.length ≤ (generateR1cs cs).t := Nat.le_pow_clog (by norm_num) _
  generalize hs : generateR1cs cs = s at *
  obtain ⟨enc, commit, henc⟩ := encode_runs params s hf (by rw [hla, hlb]) (by rw [hlb, hlc]) []
  obtain ⟨hok, _⟩ := encode_ok params s enc commit _ _ henc
  refine ⟨enc, commit, henc, ?_, ?_⟩
  · intro proof hp
    obtain ⟨rx, ry, t1, t2, hp1, ha, hb, hc, hsp⟩ := createSnark_inv _ _ _ _ _ _ _ _ _ _ _ _ _ _ _ hp
    obtain ⟨a, b, c, ha', hb', hc', hv, hx, hy⟩ := sat_complete h2 h3 ch satParams hs1 hh _ hf hla hlb hlc cs inputs hz hin hsat
      rand hr _ _ _ _ _ hp1
    rw [ha] at ha'
    rw [hb] at hb'
    rw [hc] at hc'
    obtain rfl := Option.some.inj ha'
    obtain rfl := Option.some.inj hb'
    obtain rfl := Option.some.inj hc'
    refine verifySnark_of ch satParams params s inputs proof commit r1csHash paramsHash encodeHash rx ry t1 t2 hv ?_
    exact sparse_complete h2 h3 ch params hop.1 hmp.1 hdp.1 enc commit _ _ hok rx ry (by rw [hx, hy]; rfl) _ r1 r2 r3 _ _ _ hsp
  · intro hch
    have hpad : s.numConstraints = padTo cs.constraints.length := by rw [← hs]; rfl
    obtain ⟨⟨sat, rx, ry⟩, t1, he, _⟩ := satProve_runs h2 h3 ch hch satParams (by rw [hs1]; exact hg1) _ hg hf hla hlb hlc cs hpad
      (by omega) (by omega) inputs hin hsat rand hr (snarkStart r1csHash paramsHash encodeHash)
    obtain ⟨a, b, c, ha, hb, hc, hv, hx, hy⟩ := sat_complete h2 h3 ch satParams hs1 hh _ hf hla hlb hlc cs inputs hz hin hsat
      rand hr _ _ _ _ _ he
    obtain ⟨pf, t2, hsp, _⟩ := sparse_runs h2 h3 ch hch params s hf hn hop hmp hdp enc commit _ _ henc rx ry hx hy a b c ha hb hc
      r1 r2 r3 hr1 hr2 hr3 (t1 ++ [.fr "Ar_claim" a] ++ [.fr "Br_claim" b] ++ [.fr "Cr_claim" c] ++
        [.u64 "n" commit.n] ++ [.u64 "m" commit.m] ++ [.pts "encode_mem_commit" commit.mem] ++
        [.pts "encode_ops_commit" commit.ops])
    refine ⟨⟨sat, (a, b, c), pf⟩, ?_⟩
    unfold createSnark
    simp only []
    have e : ∀ {α : Type} (m : Msg F G) (f : Unit → Vf F G α) (t : Transcript F G), (say m >>= f) t = f () (t ++ [m]) :=
      fun _ _ _ => rfl
    have eo : ∀ {α β : Type} (o : Option α) (x : α) (ho : o = some x) (f : α → Vf F G β) (t : Transcript F G),
      (orPanic o >>= f) t = f x t := by
      intro α β o x ho f t
      subst ho
      rfl
    rw [bind_ok he]
    simp only []
    rw [eo _ _ ha, eo _ _ hb, eo _ _ hc, e, e, e, e, e, e, e, bind_ok hsp]
    rfl

/-- C81 fails for every instance whose matrices have at most one entry each: there is no proof, whatever the randomness
and the challenges. -/
theorem C81_single (ch : Oracle F G) (satParams : SatParams G) (params : EvalsParams G) (s : Inst F) (hn : s.entries ≤ 1)
    (cs : CS F) (enc : EncodeMemory F) (commit : EncodeCommit G) (tr0 tr0' : Transcript F G)
    (henc : encode params s tr0 = .ok ((enc, commit), tr0')) (rand : SatRand F) (r1 r2 r3 : OpenRand F)
    (r1csHash paramsHash encodeHash : F) (proof : SnarkProof F G) :
    createSnark ch satParams params s cs enc commit rand r1 r2 r3 r1csHash paramsHash encodeHash ≠ .ok proof := by
  intro hp
  obtain ⟨rx, ry, t1, t2, _, _, _, _, hp⟩ := createSnark_inv _ _ _ _ _ _ _ _ _ _ _ _ _ _ _ hp
  obtain ⟨he, _⟩ := encode_ok params s enc commit _ _ henc
  have hk : Nat.clog 2 s.entries = 0 := Nat.clog_of_right_le_one hn 2
  rw [hk] at he
  unfold sparseEvalProve at hp
  obtain ⟨_, _, h0, hp⟩ := bind_inv hp
  simp only [] at hp
  obtain ⟨eRow, _, h0, hp⟩ := bind_inv hp
  obtain ⟨hER, _⟩ := orPanic_inv h0
  obtain ⟨eCol, _, h0, hp⟩ := bind_inv hp
  obtain ⟨dc, td, hdc, hp⟩ := bind_inv hp
  obtain ⟨_, _, h0, hp⟩ := bind_inv hp
  obtain ⟨g1, ta, ha, hp⟩ := bind_inv hp
  obtain ⟨g2, tb, hb, hp⟩ := bind_inv hp
  obtain ⟨row, _, h0, hp⟩ := bind_inv hp
  obtain ⟨hrow, _⟩ := orPanic_inv h0
  have hchk : enc.row.auditTs.length = (evalEq (equalizeLength rx ry).1).length := by
    unfold memoryChecking at hrow
    split_ifs at hrow with hc
    push Not at hc
    exact hc.2.1.symm
  obtain ⟨sR1, sR2⟩ := derefs_shape _ _ (2 ^ 0) _ hER fun l hl => (he.rowI.2 l hl).1
  rw [he.rowI.1] at sR1
  have triR : ∀ x ∈ triples enc.row.addrs enc.row.readTs eRow, x.1.1.length = 2 ^ 0 ∧ x.1.2.length = 2 ^ 0 ∧
      x.2.length = 2 ^ 0 := by
    intro x hx
    obtain ⟨hx1, hx2⟩ := List.of_mem_zip (show (x.1, x.2) ∈ _ from hx)
    obtain ⟨hx3, hx4⟩ := List.of_mem_zip (show (x.1.1, x.1.2) ∈ _ from hx1)
    exact ⟨he.rowA.2 _ hx3, he.rowT.2 _ hx4, sR2 _ hx2⟩
  obtain ⟨_, _, _, _, p5, _⟩ := memoryChecking_inv _ _ _ _ _ _ _ row hchk
    (fun x hx => by obtain ⟨h1, h2, h3⟩ := triR x hx; rw [h1, h2, h3]; exact ⟨rfl, rfl⟩) hrow
  obtain ⟨a0, a1, a2, hA⟩ := List.length_eq_three.1 he.rowA.1
  obtain ⟨u0, u1, u2, hU⟩ := List.length_eq_three.1 he.rowT.1
  obtain ⟨e0, e1, e2, hE⟩ := List.length_eq_three.1 sR1
  have hmem : ((a0, u0), e0) ∈ triples enc.row.addrs enc.row.readTs eRow := by rw [hA, hU, hE]; simp [triples]
  have := p5 _ hmem
  rw [(triR _ hmem).1] at this
  norm_num at this

namespace Ex81

open Ex79 (ch ch_ne)

def pc (n : Nat) : PcParams F17 := ⟨0, ⟨n, (List.range n).map fun i => (i : F17) + 1, 5⟩, ⟨1, [7], 5⟩⟩

def satParams : SatParams F17 := Ex79.params

def params : EvalsParams F17 := ⟨pc 8, pc 4, pc 4⟩

/-- The circuit `x · (x + u) = out` with three public inputs (with the constant one) and one witness. -/
def circuit (u x out : F17) : CS F17 :=
  ⟨true, [1, u, out], [x], [⟨[(.aux 0, 1)], [(.aux 0, 1), (.input 1, 1)], [(.input 2, 1)]⟩]⟩

theorem circuit_valid (u x : F17) : (circuit u x (x * (x + u))).Valid := by
  rintro w ⟨h1, h2⟩ k hk
  have e0 : w (.input 1) = u := h1 1 _ rfl
  have e1 : w (.input 2) = x * (x + u) := h1 2 _ rfl
  have e2 : w (.aux 0) = x := h2 0 _ rfl
  obtain rfl : k = _ := by simpa [circuit] using hk
  simp [R1C.Holds, LC.eval, e0, e1, e2]

theorem circuit_closed (u x out : F17) : (circuit u x out).Closed := by
  intro k hk t ht
  obtain rfl : k = _ := by simpa [circuit] using hk
  simp only [List.cons_append, List.nil_append, List.mem_cons, List.not_mem_nil, or_false] at ht
  rcases ht with rfl | rfl | rfl | rfl <;> simp [circuit]

theorem t_eq (u x out : F17) : (generateR1cs (circuit u x out)).t = 4 := (by decide : padTo (max 1 3) = 4)

theorem n_eq (u x out : F17) : (generateR1cs (circuit u x out)).numConstraints = 1 := (by decide : padTo 1 = 1)

theorem entries_eq (u x out : F17) : (generateR1cs (circuit u x out)).entries = 2 := by
  have : (generateR1cs (circuit u x out)).entries = (generateR1cs (circuit 0 0 0)).entries := rfl
  rw [this]
  decide +kernel

theorem memVars_eq (u x out : F17) : (generateR1cs (circuit u x out)).memVars = 3 := by
  unfold Inst.memVars
  rw [t_eq, n_eq]
  decide

theorem rand_shape (u x out : F17) : Ex79.rand.Shape (Nat.clog 2 (generateR1cs (circuit u x out)).numConstraints)
    (Nat.clog 2 (generateR1cs (circuit u x out)).t) := by
  rw [t_eq, n_eq, Ex79.clog4, Ex79.clog1]
  exact ⟨rfl, rfl, by simp [Ex79.rand], rfl, by simp [Ex79.rand], rfl⟩

def openRand : OpenRand F17 := ⟨3, 4, 5, [(1, 2), (3, 4), (5, 6)]⟩

/-- The hypotheses of `C81_partial` can be met: public inputs 6 and 10, witness 3. `3 · (3 + 6) = 27 = 10`. -/
example : ∃ enc commit proof, encode params (generateR1cs (circuit 6 3 10)) [] = .ok ((enc, commit), []) ∧
    createSnark ch satParams params (generateR1cs (circuit 6 3 10)) (circuit 6 3 10) enc commit Ex79.rand openRand openRand
      openRand 1 2 3 = .ok proof ∧
    verifySnark ch satParams params (generateR1cs (circuit 6 3 10)) [6, 10] proof commit 1 2 3 = .ok () := by
  obtain ⟨enc, commit, h0, h1, h2⟩ := C81_partial (by decide : (2 : F17) ≠ 0) (by decide : (3 : F17) ≠ 0) satParams rfl rfl
    (by simp [satParams, Ex79.params]) params (circuit 6 3 10) (circuit_closed _ _ _) (circuit_valid 6 3) [6, 10] rfl (.of_ne (by decide))
    (by rw [entries_eq]) (by rw [t_eq, Ex79.clog4]; decide)
    (by rw [entries_eq]; exact ⟨rfl, by decide, by simp [params, pc]⟩)
    (by rw [memVars_eq]; exact ⟨rfl, by decide, by simp [params, pc]⟩)
    (by rw [entries_eq]; exact ⟨rfl, by decide, by simp [params, pc]⟩) Ex79.rand (rand_shape _ _ _) openRand openRand openRand
    (by rw [entries_eq]; unfold OpenRand.Enough; decide) (by rw [entries_eq]; unfold OpenRand.Enough; decide)
    (by rw [memVars_eq]; unfold OpenRand.Enough; decide) ch 1 2 3
  obtain ⟨proof, hp⟩ := h2 ch_ne
  exact ⟨enc, commit, proof, h0, hp, h1 proof hp⟩

/-- The encoding, the proof and the check in one run. -/
def rejected (cs : CS F17) (inputs : List F17) : Bool :=
  match encode params (generateR1cs cs) [] with
  | .ok ((enc, commit), _) =>
    Ex79.rejected (createSnark ch satParams params (generateR1cs cs) cs enc commit Ex79.rand openRand openRand openRand 1 2 3)
      fun proof => verifySnark ch satParams params (generateR1cs cs) inputs proof commit 1 2 3
  | .error _ => false

end Ex81

/-- C81 fails for zero inputs: with the public inputs 0 and 9 the circuit `x · (x + u) = out` is satisfied by 3 and the
prover outputs a proof, but the verifier rejects it. -/
theorem C81_violated : ∃ (satParams : SatParams F17) (params : EvalsParams F17) (cs : CS F17) (inputs : List F17)
    (rand : SatRand F17) (r1 r2 r3 : OpenRand F17) (ch : Oracle F17 F17) (enc : EncodeMemory F17) (commit : EncodeCommit F17)
    (proof : SnarkProof F17 F17), cs.Closed ∧ cs.Valid ∧ cs.inputs = 1 :: inputs ∧ 2 ≤ (generateR1cs cs).entries ∧
    (∀ t, ch t ≠ 0) ∧ (∃ tr, encode params (generateR1cs cs) [] = .ok ((enc, commit), tr)) ∧
    createSnark ch satParams params (generateR1cs cs) cs enc commit rand r1 r2 r3 1 2 3 = .ok proof ∧
    verifySnark ch satParams params (generateR1cs cs) inputs proof commit 1 2 3 = .error .reject := by
  have hp : Ex81.rejected (Ex81.circuit 0 3 9) [0, 9] = true := by decide +kernel
  unfold Ex81.rejected at hp
  split at hp
  · next enc commit tr he =>
    obtain ⟨proof, h1, h2⟩ := Ex79.rejected_ok hp
    exact ⟨Ex81.satParams, Ex81.params, Ex81.circuit 0 3 9, [0, 9], Ex79.rand, Ex81.openRand, Ex81.openRand, Ex81.openRand,
      Ex79.ch, enc, commit, proof, Ex81.circuit_closed _ _ _, Ex81.circuit_valid 0 3, rfl, by rw [Ex81.entries_eq],
      Ex79.ch_ne, ⟨tr, he⟩, h1, h2⟩
  · cases hp

/-- `C81_single` applies to the satisfied circuit `x · x = out` with public inputs 6 and 9 and the witness 3. -/
example : (generateR1cs (Ex79.circuit 6 3 9)).entries ≤ 1 ∧ (Ex79.circuit 6 3 9).Valid ∧
    ∃ enc commit, encode Ex81.params (generateR1cs (Ex79.circuit 6 3 9)) [] = .ok ((enc, commit), []) ∧
      ∀ proof, createSnark Ex79.ch Ex79.params Ex81.params (generateR1cs (Ex79.circuit 6 3 9)) (Ex79.circuit 6 3 9) enc commit
        Ex79.rand Ex81.openRand Ex81.openRand Ex81.openRand 1 2 3 ≠ .ok proof := by
  have hn : (generateR1cs (Ex79.circuit 6 3 9)).entries ≤ 1 := by decide +kernel
  obtain ⟨_, _, hla, hlb, hlc⟩ := C48_generate (Ex79.circuit 6 3 9) (assign (fun _ => 0) [6, 9]) rfl
  obtain ⟨enc, commit, henc⟩ := encode_runs Ex81.params (generateR1cs (Ex79.circuit 6 3 9))
    (generate_fits _ (Ex79.circuit_closed _ _ _)) (by rw [hla, hlb]) (by rw [hlb, hlc]) []
  exact ⟨hn, Ex79.circuit_valid 6 3, enc, commit, henc, fun proof =>
    C81_single _ _ _ _ hn _ enc commit _ _ henc _ _ _ _ _ _ _ proof⟩

end Zkp.Spartan
