/- C80: Spartan's SNARK verifier and false statements. -/
import Verif.Proof.SpartanSnarkRun
import Verif.Props.SpartanNizk

namespace Zkp.Spartan

open Zkp.Ml Zkp.Sc Zkp.Cp

set_option linter.unusedSectionVars false
set_option linter.unusedSimpArgs false

variable {F : Type} [Field F] {G : Type} [AddCommGroup G] [Module F G] [DecidableEq F] [DecidableEq G]

theorem openFolded_zero (ch : Oracle F G) (pc : PcParams G) (hg : pc.genN.generators ≠ []) (h1 : pc.gen1.generators ≠ [])
    (label : String) (cs r : List F) (tr : Transcript F G) :
    ∃ tr', openFolded ch pc label cs r 0 [] ⟨[], [], 0, 0, 0, 0⟩ tr = .ok ((), tr') := by
  have : Succeeds (openFolded ch pc label cs r 0 [] ⟨[], [], 0, 0, 0, 0⟩) fun _ => True := by
    unfold openFolded
    refine (Succeeds.say _).bind fun _ _ => ?_
    simp only [commitVec_zero1]
    exact (inner_zero ch pc (cs ++ r) hg h1).bind fun b hb => Succeeds.ensure _ hb
  obtain ⟨_, t, h, _⟩ := this tr
  exact ⟨t, h⟩

theorem zeros_prod (k : Nat) : (List.replicate (2 ^ k) (0 : F)).prod = 0 := by
  rw [List.prod_replicate, zero_pow (by positivity)]

theorem sum_zero_left (d : Dotp F) (n : Nat) (h : d.1 = List.replicate n 0) : sumDotp d = 0 := by
  unfold sumDotp
  apply List.sum_eq_zero
  intro x hx
  obtain ⟨i, _, rfl⟩ := List.mem_map.1 hx
  rw [h]
  have : (List.replicate n (0 : F)).getD i 0 = 0 := by
    rw [List.getD_eq_getElem?_getD, List.getElem?_replicate]
    split_ifs <;> rfl
  rw [this]; ring

/-- The evaluation argument accepts the claim that all three matrices evaluate to zero, at every point, for every
committed instance whose matrices have at least two entries. -/
theorem sparse_forgery (h2 : (2 : F) ≠ 0) (h3 : (3 : F) ≠ 0) (ch : Oracle F G) (hch : ∀ t, ch t ≠ 0) (params : EvalsParams G)
    (enc : EncodeMemory F) (commit : EncodeCommit G) (k lm : Nat) (hk : 0 < k) (hlm : 0 < lm)
    (he : EncOk params enc commit k lm) (ho : CanOpen params.ops (4 + k)) (hm : CanOpen params.mem (1 + lm))
    (hd1 : params.derefs.genN.generators ≠ []) (hd2 : params.derefs.gen1.generators ≠ [])
    (rx ry : List F) (hr : max rx.length ry.length = lm) (tr : Transcript F G) :
    ∃ proof tr', sparseEvalVerify ch params proof commit rx ry (0, 0, 0) tr = .ok ((), tr') := by
  obtain ⟨hrows, hcols⟩ := equalize_length rx ry lm hr
  set rows := (equalizeLength rx ry).1 with er
  set cols := (equalizeLength rx ry).2 with ec
  obtain ⟨⟨g1, g2⟩, t1, hg, _⟩ : Runs (do
      let g1 ← challenge ch "challenge_gamma_hash"
      let g2 ← challenge ch "challenge_gamma_hash"
      pure (g1, g2) : Vf F G (F × F)) ((tr ++ [.frs "protocol-name: sparse polynomial evaluation proof" []]) ++
        [.pts "comm_poly_row_col_ops_val" []]) fun _ _ => True :=
    Runs.challenge.bind fun _ _ _ => Runs.challenge.bind fun _ _ _ => Runs.pure trivial
  -- the claims
  let mems : List (List F) := [initList g1 g2 (evalEq rows), auditList g1 g2 (evalEq rows) enc.row.auditTs,
    initList g1 g2 (evalEq cols), auditList g1 g2 (evalEq cols) enc.col.auditTs]
  have hmems : ∀ x ∈ mems, x.length = 2 ^ lm := by
    intro x hx
    simp only [mems, List.mem_cons, List.not_mem_nil, or_false] at hx
    rcases hx with rfl | rfl | rfl | rfl <;> apply hashList_length <;> simp [evalEq_length, hrows, hcols, he.rowE, he.colE]
  let rowC : MemClaims F := ⟨(initList g1 g2 (evalEq rows)).prod, [0, 0, 0], [0, 0, 0],
    (auditList g1 g2 (evalEq rows) enc.row.auditTs).prod⟩
  let colC : MemClaims F := ⟨(initList g1 g2 (evalEq cols)).prod, [0, 0, 0], [0, 0, 0],
    (auditList g1 g2 (evalEq cols) enc.col.auditTs).prod⟩
  obtain ⟨t2, m1⟩ := memClaims_ok "row" rowC (by simp [rowC])
    (t1 ++ [.frs "protocol-name: Sparse polynomial product layer proof" []])
  obtain ⟨t3, m2⟩ := memClaims_ok "col" colC (by simp [colC]) t2
  obtain ⟨t4, d⟩ := dotpClaims_ok [(0 : F), 0, 0] [0, 0, 0] [0, 0, 0] rfl rfl (by
    intro i hi
    have : i = 0 ∨ i = 1 ∨ i = 2 := by simp at hi; omega
    rcases this with rfl | rfl | rfl <;> simp) t3
  -- the product circuits
  let z : List F := List.replicate (2 ^ k) 0
  let full : List (Dotp F) := enc.vals.map fun v => (z, z, v)
  obtain ⟨v0, v1, v2, hv⟩ := List.length_eq_three.1 he.vals.1
  obtain ⟨⟨opsP, randsOps⟩, t5, _, hro, c1⟩ := circuitEval_complete h2 h3 ch k hk (List.replicate 12 z) (by simp)
    (fun x hx => by rw [List.eq_of_mem_replicate hx]; simp [z]) full (by
      intro d hd
      obtain ⟨v, hv, rfl⟩ := List.mem_map.1 hd
      exact ⟨by simp [z], by simp [z], he.vals.2 v hv⟩) t4
  simp only at hro c1
  obtain ⟨⟨memP, randsMem⟩, t6, _, hrm, c2⟩ := circuitEval_complete h2 h3 ch lm hlm mems (by simp [mems]) hmems [] (by simp) t5
  simp only at hrm c2
  have hsums : halfSums full = [0, 0, 0, 0, 0, 0] := by
    have e1 : ∀ v : List F, sumDotp (halfDotp (z, z, v)).1 = 0 := fun v =>
      sum_zero_left _ (min (2 ^ k / 2) (2 ^ k)) (by simp [halfDotp, z])
    have e2 : ∀ v : List F, sumDotp (halfDotp (z, z, v)).2 = 0 := fun v =>
      sum_zero_left _ (2 ^ k - 2 ^ k / 2) (by simp [halfDotp, z])
    simp [halfSums, full, hv, e1, e2]
  rw [hsums] at c1
  have hz : ∀ r : List F, mle z r = 0 := fun r => mle_zeros _ r
  have c1' : circuitEvalVerify ch opsP ([(0 : F), 0, 0] ++ [0, 0, 0] ++ [0, 0, 0] ++ [0, 0, 0]) [0, 0, 0, 0, 0, 0]
      commit.n t4 = .ok ((List.replicate 12 0, [0, 0, mle v0 randsOps, 0, 0, mle v1 randsOps, 0, 0, mle v2 randsOps],
        randsOps), t5) := by
    have e : (List.replicate 12 z).map List.prod = [(0 : F), 0, 0] ++ [0, 0, 0] ++ [0, 0, 0] ++ [0, 0, 0] := by
      simp [z, zeros_prod, List.replicate_succ]
    have e' : dotpAt full randsOps = [0, 0, mle v0 randsOps, 0, 0, mle v1 randsOps, 0, 0, mle v2 randsOps] := by
      simp [dotpAt, full, hv, hz]
    rw [he.n, ← e, c1, e']
    simp [hz]
  rw [← he.m] at c2
  let layer : ProductLayerProof F := ⟨memP, opsP, [0, 0, 0], [0, 0, 0], rowC, colC⟩
  have hp := productVerify_of ch layer commit.n commit.m [0, 0, 0] ⟨rfl, rfl, rfl, rfl, rfl, rfl, rfl⟩ _ _ _ t1 t2 t3 t4 t5 t6
    m1 m2 d c1' c2
  -- the hash layer
  obtain ⟨cs1, t7, f1, hc1⟩ := foldEvals_ok ch "evals_ops_val" "challenge_combine_n_to_one" ([(0 : F), 0, 0] ++ [0, 0, 0])
    ((t6 ++ [.frs "protocol-name: Sparse polynomial hash layer proof" []]) ++
      [.frs "protocol-name: Derefs evaluation proof" []])
  have hz6 : mle ([(0 : F), 0, 0] ++ [0, 0, 0]) cs1 = 0 := mle_zeros 6 cs1
  rw [hz6] at f1
  obtain ⟨t8, o1⟩ := openFolded_zero ch params.derefs hd1 hd2 "joint_claim_eval" cs1 randsOps t7
  let at' : List (List F) → List F := fun l => l.map (mle · randsOps)
  let reads : List F := at' (enc.row.addrs ++ enc.row.readTs ++ enc.col.addrs ++ enc.col.readTs)
  have hall : ([] : List F) ++ reads ++ [] ++ [] ++ [mle v0 randsOps, mle v1 randsOps, mle v2 randsOps] =
      enc.lists.map (mle · randsOps) := by
    simp [reads, at', EncodeMemory.lists, hv]
  obtain ⟨cs2, t9, f2, hc2⟩ := foldEvals_ok ch "claim_evals_ops" "challenge_combine_n_to_one"
    (([] : List F) ++ reads ++ [] ++ [] ++ [mle v0 randsOps, mle v1 randsOps, mle v2 randsOps]) t8
  have hc2' : cs2.length = 4 := by
    rw [hc2, hall, List.length_map, he.lists_len.1]; decide
  obtain ⟨p2, t10, o2⟩ := can_open ch hch params.ops (4 + k) ho "joint_claim_eval_ops" cs2 randsOps enc.ops
    (by rw [List.length_append, hc2', hro]) he.ops_len commit.ops he.commitOps t9
  rw [he.ops_at cs2 randsOps hro, ← hall] at o2
  obtain ⟨cs3, t11, f3, hc3⟩ := foldEvals_ok ch "claim_evals_mem" "challenge_combine_two_to_one"
    [mle enc.row.auditTs randsMem, mle enc.col.auditTs randsMem] t10
  have hc3' : cs3.length = 1 := hc3.trans (by decide : Nat.clog 2 2 = 1)
  obtain ⟨p3, t12, o3⟩ := can_open ch hch params.mem (1 + lm) hm "joint_claim_eval_mem" cs3 randsMem enc.mem
    (by rw [List.length_append, hc3', hrm]) he.mem_len commit.mem he.commitMem t11
  rw [he.mem_at cs3 randsMem hrm] at o3
  let hash : HashLayerProof F G := ⟨⟨[], [], 0, 0, 0, 0⟩, p2, p3, [0, 0, 0], [0, 0, 0],
    ([], reads, mle enc.row.auditTs randsMem), ([], [], mle enc.col.auditTs randsMem),
    [mle v0 randsOps, mle v1 randsOps, mle v2 randsOps]⟩
  have b1 : behindVerify randsMem ⟨(mems.map (mle · randsMem)).getD 0 0, (List.replicate 12 (0 : F)).take 3,
      ((List.replicate 12 (0 : F)).drop 3).take 3, (mems.map (mle · randsMem)).getD 1 0⟩ rows [0, 0, 0] [] reads
      (mle enc.row.auditTs randsMem) g1 g2 = some () := by
    refine (C50_actual _ _ _ _ _ _ _ _ _).2 ⟨_, evalEq_symm rows randsMem (by rw [hrows, hrm]), ?_, ?_, by simp⟩
    · exact mle_initList g1 g2 rows randsMem (by rw [hrows, hrm])
    · exact mle_auditList g1 g2 rows _ randsMem (by rw [hrows, hrm]) (by rw [hrm, he.rowE])
  have b2 : behindVerify randsMem ⟨(mems.map (mle · randsMem)).getD 2 0, ((List.replicate 12 (0 : F)).drop 6).take 3,
      ((List.replicate 12 (0 : F)).drop 9).take 3, (mems.map (mle · randsMem)).getD 3 0⟩ cols [0, 0, 0] [] []
      (mle enc.col.auditTs randsMem) g1 g2 = some () := by
    refine (C50_actual _ _ _ _ _ _ _ _ _).2 ⟨_, evalEq_symm cols randsMem (by rw [hcols, hrm]), ?_, ?_, by simp⟩
    · exact mle_initList g1 g2 cols randsMem (by rw [hcols, hrm])
    · exact mle_auditList g1 g2 cols _ randsMem (by rw [hcols, hrm]) (by rw [hrm, he.colE])
  have hh := hashVerify_of ch params hash rows cols randsOps randsMem g1 g2 _ _
    [0, 0, mle v0 randsOps, 0, 0, mle v1 randsOps, 0, 0, mle v2 randsOps] commit [] rfl rfl rfl rfl (by
      intro i hi
      have : i = 0 ∨ i = 1 ∨ i = 2 := by omega
      rcases this with rfl | rfl | rfl <;> simp [hash]) cs1 cs2 cs3 _ _ _ t6 t7 t8 t9 t10 t11 t12 f1 o1 f2 o2 f3 o3 b1 b2
  exact ⟨⟨layer, hash, []⟩, t12, sparseVerify_of ch params ⟨layer, hash, []⟩ commit rx ry (0, 0, 0) tr t6 t12 _ _ _ _ _ _
    (by rw [← er, hrows, he.m]) g1 g2 t1 hg hp (by simp [mems]) hh⟩

/-- One way to build a proof works for every instance with at least two entries in some matrix, for all public inputs: the
verifier accepts it. The commitment is the honest one. -/
theorem C80_forgery (h2 : (2 : F) ≠ 0) (h3 : (3 : F) ≠ 0) (ch : Oracle F G) (hch : ∀ t, ch t ≠ 0) (satParams : SatParams G)
    (hg : satParams.pc.genN.generators ≠ []) (h1 : satParams.pc.gen1.generators ≠ []) (params : EvalsParams G) (s : Inst F)
    (ho : CanOpen params.ops (4 + Nat.clog 2 s.entries)) (hm : CanOpen params.mem (1 + s.memVars))
    (hd1 : params.derefs.genN.generators ≠ []) (hd2 : params.derefs.gen1.generators ≠ []) (hn : 2 ≤ s.entries)
    (enc : EncodeMemory F) (commit : EncodeCommit G) (tr0 tr0' : Transcript F G)
    (he : encode params s tr0 = .ok ((enc, commit), tr0')) (inputs : List F) (hin : inputs.length + 1 ≤ s.t)
    (r1csHash paramsHash encodeHash : F) :
    ∃ proof, verifySnark ch satParams params s inputs proof commit r1csHash paramsHash encodeHash = .ok () := by
  obtain ⟨hok, _⟩ := encode_ok params s enc commit tr0 tr0' he
  obtain ⟨⟨rx, ry⟩, t1, hsat, hx, hy⟩ := sat_zero ch satParams s inputs hin hg h1 (snarkStart r1csHash paramsHash encodeHash)
  simp only at hx hy
  obtain ⟨proof, t2, hsp⟩ := sparse_forgery h2 h3 ch hch params enc commit _ _ (Nat.clog_pos (by norm_num) hn)
    (lt_of_lt_of_le (Nat.succ_pos _) (le_max_right _ _)) hok ho hm hd1 hd2 rx ry (by rw [hx, hy])
    (t1 ++ [.fr "Ar_claim" 0] ++ [.fr "Br_claim" 0] ++ [.fr "Cr_claim" 0] ++ [.u64 "n" commit.n] ++ [.u64 "m" commit.m] ++
      [.pts "encode_mem_commit" commit.mem] ++ [.pts "encode_ops_commit" commit.ops])
  refine ⟨⟨zeroSat (Nat.clog 2 s.numConstraints) (Nat.clog 2 s.t + 1), (0, 0, 0), proof⟩, ?_⟩
  unfold verifySnark
  simp only []
  rw [show ([.fr "Spartan SNARK proof: r1cs_hash" r1csHash, .fr "params_hash" paramsHash,
    .fr "encode_hash" encodeHash] : Transcript F G) = snarkStart r1csHash paramsHash encodeHash from rfl]
  rw [bind_ok hsat]
  simp only []
  have e : ∀ (m : Msg F G) (f : Unit → Vf F G Unit) (t : Transcript F G), (say m >>= f) t = f () (t ++ [m]) := fun _ _ _ => rfl
  rw [e, e, e, e, e, e, e, hsp]

/-- C80 fails: an instance that cannot be satisfied has an accepted proof for every public input, with the commitment that
`encode` computes for it. -/
theorem C80_violated (h2 : (2 : F) ≠ 0) (h3 : (3 : F) ≠ 0) (ch : Oracle F G) (hch : ∀ t, ch t ≠ 0) (satParams : SatParams G)
    (hg : satParams.pc.genN.generators ≠ []) (h1 : satParams.pc.gen1.generators ≠ []) (params : EvalsParams G)
    (ho : CanOpen params.ops 5) (hm : CanOpen params.mem 3)
    (hd1 : params.derefs.genN.generators ≠ []) (hd2 : params.derefs.gen1.generators ≠ []) :
    ∃ s : Inst F, (¬ ∃ z, s.Sat z) ∧ ∃ enc commit, encode params s [] = .ok ((enc, commit), []) ∧
      ∀ x r1csHash paramsHash encodeHash : F, ∃ proof,
        verifySnark ch satParams params s [x] proof commit r1csHash paramsHash encodeHash = .ok () := by
  obtain ⟨enc, commit, he⟩ := encode_runs params (falseInst : Inst F) falseInst_fits rfl rfl []
  have hent : (falseInst : Inst F).entries = 2 := by
    have h0 : (1 : F) ≠ 0 := one_ne_zero
    simp [Inst.entries, switchMatrixToList, falseInst, rowMap, mapAdd, h0]
  have hmv : (falseInst : Inst F).memVars = 2 := by
    unfold Inst.memVars
    rw [falseInst_t, show (falseInst : Inst F).numConstraints = 2 from rfl]
    decide
  refine ⟨falseInst, falseInst_unsat, enc, commit, he, fun x a b c => ?_⟩
  exact C80_forgery h2 h3 ch hch satParams hg h1 params falseInst (by rw [hent]; exact ho) (by rw [hmv]; exact hm) hd1 hd2
    (by rw [hent]) enc commit _ _ he [x] (by rw [falseInst_t]; simp) a b c

/-- Over the field with 17 elements as its own group. -/
example : ∃ s : Inst F17, (¬ ∃ z, s.Sat z) ∧ ∃ enc commit,
    encode (G := F17) ⟨⟨5, ⟨8, [1, 2, 3, 4, 5, 6, 7, 8], 9⟩, ⟨1, [5], 9⟩⟩, ⟨3, ⟨4, [1, 2, 3, 4], 9⟩, ⟨1, [5], 9⟩⟩,
      ⟨3, ⟨4, [1, 2, 3, 4], 9⟩, ⟨1, [5], 9⟩⟩⟩ s [] = .ok ((enc, commit), []) ∧
    ∀ x r1csHash paramsHash encodeHash : F17, ∃ proof,
      verifySnark (fun tr => if (tr.length : F17) = 0 then 1 else (tr.length : F17))
        ⟨⟨2, ⟨2, [2, 3], 4⟩, ⟨1, [5], 4⟩⟩, ⟨1, [5], 4⟩, ⟨3, [6, 7, 8], 9⟩, ⟨4, [10, 11, 12, 13], 14⟩, 2⟩
        ⟨⟨5, ⟨8, [1, 2, 3, 4, 5, 6, 7, 8], 9⟩, ⟨1, [5], 9⟩⟩, ⟨3, ⟨4, [1, 2, 3, 4], 9⟩, ⟨1, [5], 9⟩⟩,
      ⟨3, ⟨4, [1, 2, 3, 4], 9⟩, ⟨1, [5], 9⟩⟩⟩ s [x] proof commit r1csHash paramsHash encodeHash = .ok () :=
  C80_violated (by decide) (by decide) _ (by intro t; split_ifs with h; exacts [by decide, h]) _ (by simp)
    (by simp) _ ⟨rfl, by simp, by simp⟩ ⟨rfl, by simp, by simp⟩ (by simp) (by simp)

end Zkp.Spartan
