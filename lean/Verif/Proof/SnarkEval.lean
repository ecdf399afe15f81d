/- Soundness of Spartan's evaluation argument: the hash layer, the product layer and the two together. -/
import Verif.Proof.SnarkHash

namespace Zkp.Sc

open Zkp.Ml Zkp.Spartan Zkp.Cp

set_option linter.unusedSectionVars false
set_option linter.unusedSimpArgs false

variable {F : Type} [Field F] {G : Type} [AddCommGroup G] [Module F G] [DecidableEq F] [DecidableEq G]

/-! ### The hash layer -/

/-- A block of a list of `2 ^ k` long blocks. -/
def block (k : Nat) (w : List F) (i : Nat) : List F := (w.drop (i * 2 ^ k)).take (2 ^ k)

theorem blocks_flatten (c n : Nat) (w : List F) (h : w.length = n * c) :
    ((List.range n).map fun i => (w.drop (i * c)).take c).flatten = w := by
  induction n generalizing w with
  | zero => simp at h; subst h; rfl
  | succ n ih =>
    rw [List.range_succ_eq_map, List.map_cons, List.flatten_cons, List.map_map]
    have := ih (w.drop c) (by rw [List.length_drop, h]; rw [Nat.succ_mul]; omega)
    have e : (fun i => (w.drop (i * c)).take c) ∘ Nat.succ = fun i => ((w.drop c).drop (i * c)).take c := by
      funext i
      simp only [Function.comp, List.drop_drop]
      congr 2
      rw [Nat.succ_mul]; omega
    rw [e, this]
    simp

theorem block_length (k n : Nat) (w : List F) (h : w.length = n * 2 ^ k) (i : Nat) (hi : i < n) : (block k w i).length = 2 ^ k := by
  unfold block
  rw [List.length_take, List.length_drop, h]
  have : (i + 1) * 2 ^ k ≤ n * 2 ^ k := Nat.mul_le_mul_right _ hi
  rw [Nat.succ_mul] at this
  omega

theorem behind_sound (g1 g2 : F) (rows opsR memR audit : List F) (A T E : List (List F)) (hA : A.length = 3)
    (hT : T.length = 3) (hE : E.length = 3) (hrows : rows.length = memR.length) (hau : audit.length = 2 ^ memR.length)
    (hl : ∀ l ∈ A ++ T ++ E, l.length = 2 ^ opsR.length) (claims : MemClaims F) (hcr : claims.read.length = 3)
    (hcw : claims.write.length = 3)
    (h : behindVerify memR claims rows (E.map (mle · opsR)) (A.map (mle · opsR)) (T.map (mle · opsR)) (mle audit memR) g1 g2 =
      some ()) :
    claims.init = mle (initList g1 g2 (evalEq rows)) memR ∧
      claims.read = (triples A T E).map (fun x => mle (readList g1 g2 x) opsR) ∧
      claims.write = (triples A T E).map (fun x => mle (writeList g1 g2 x) opsR) ∧
      claims.audit = mle (auditList g1 g2 (evalEq rows) audit) memR := by
  obtain ⟨val, hv, hi, ha, hall⟩ := (C50_actual _ _ _ _ _ _ _ _ _).1 h
  rw [evalEq_symm rows memR hrows] at hv
  obtain rfl := Option.some.inj hv
  obtain ⟨a0, a1, a2, rfl⟩ := List.length_eq_three.1 hA
  obtain ⟨t0, t1, t2, rfl⟩ := List.length_eq_three.1 hT
  obtain ⟨e0, e1, e2, rfl⟩ := List.length_eq_three.1 hE
  obtain ⟨r0, r1, r2, hr⟩ := List.length_eq_three.1 hcr
  obtain ⟨w0, w1, w2, hw⟩ := List.length_eq_three.1 hcw
  have hr' : ∀ a v t : List F, a.length = 2 ^ opsR.length → v.length = 2 ^ opsR.length → t.length = 2 ^ opsR.length →
      mle (readList g1 g2 ((a, t), v)) opsR = readHash g1 g2 (mle a opsR) (mle v opsR) (mle t opsR) := fun a v t h1 h2 h3 =>
    mle_hashList g1 g2 a v t opsR h1 h2 h3
  have hw' : ∀ a v t : List F, a.length = 2 ^ opsR.length → v.length = 2 ^ opsR.length → t.length = 2 ^ opsR.length →
      mle (writeList g1 g2 ((a, t), v)) opsR = readHash g1 g2 (mle a opsR) (mle v opsR) (mle t opsR + 1) :=
      fun a v t h1 h2 h3 => by
    rw [← mle_add_one t opsR h3]
    exact mle_hashList g1 g2 a v _ opsR h1 h2 (by simpa using h3)
  simp only [List.cons_append, List.nil_append, List.mem_cons, List.not_mem_nil, or_false, forall_eq_or_imp, forall_eq] at hl
  obtain ⟨l1, l2, l3, l4, l5, l6, l7, l8, l9⟩ := hl
  have q0 := hall 0 (by simp)
  have q1 := hall 1 (by simp)
  have q2 := hall 2 (by simp)
  simp only [hr, hw, List.map_cons, List.map_nil, List.getElem?_cons_zero, List.getElem?_cons_succ, Option.some.injEq,
    exists_and_left, exists_eq_left', ↓existsAndEq, true_and] at q0 q1 q2
  rw [hi, mle_initList g1 g2 rows memR hrows, mle_auditList g1 g2 rows _ memR hrows hau, hr, hw]
  simp only [triples, List.zip_cons_cons, List.zip_nil_right, List.map_cons, List.map_nil]
  rw [hr' _ _ _ l1 l7 l4, hr' _ _ _ l2 l8 l5, hr' _ _ _ l3 l9 l6, hw' _ _ _ l1 l7 l4, hw' _ _ _ l2 l8 l5, hw' _ _ _ l3 l9 l6]
  simp only [and_true] at q0 q1 q2
  refine ⟨trivial, ?_, ?_, ha⟩
  · rw [q0.1, q1.1, q2.1]
  · rw [q0.2, q1.2, q2.2]

/-- The lists of the read and written cells of one memory. -/
def opsOf (g1 g2 : F) (ts : AddrTimestamps F) (es : List (List F)) : List (List F) :=
  (triples ts.addrs ts.readTs es).map (readList g1 g2) ++ (triples ts.addrs ts.readTs es).map (writeList g1 g2)

/-- The lists of the first and last cells of one memory. -/
def memOf (g1 g2 : F) (ts : AddrTimestamps F) (rows : List F) : List (List F) :=
  [initList g1 g2 (evalEq rows), auditList g1 g2 (evalEq rows) ts.auditTs]

/-- The values that the commitment claims were read from the row memory. -/
def rowOf (k : Nat) (w : List F) : List (List F) := [block k w 0, block k w 1, block k w 2]

/-- The values that the commitment claims were read from the column memory. -/
def colOf (k : Nat) (w : List F) : List (List F) := [block k w 3, block k w 4, block k w 5]

/-- The inputs of the product circuits over the entries. -/
def opsXs (g1 g2 : F) (enc : EncodeMemory F) (k : Nat) (w : List F) : List (List F) :=
  opsOf g1 g2 enc.row (rowOf k w) ++ opsOf g1 g2 enc.col (colOf k w)

/-- The inputs of the product circuits over the memories. -/
def memXs (g1 g2 : F) (enc : EncodeMemory F) (rows cols : List F) : List (List F) :=
  memOf g1 g2 enc.row rows ++ memOf g1 g2 enc.col cols

/-- The dot products. -/
def dotXs (enc : EncodeMemory F) (k : Nat) (w : List F) : List (Dotp F) := (rowOf k w).zip ((colOf k w).zip enc.vals)

/-- The bad challenges of the hash layer. -/
noncomputable def badHash (φd φo φm : Nat → G →ₗ[F] F) (k1 k2 k3 : Nat) (enc : EncodeMemory F) (k : Nat) (w opsR memR : List F) :
    Transcript F G → List F → Finset F :=
  seq 3 (fun a vs => badPoint ((List.range 8).map fun i => mle (block k w i) opsR) ((frsVals a).getD 2 []) vs) fun _ c1 =>
  seq (k1 + 1) (badOpen φd k1 (c1 ++ opsR)) fun _ _ =>
  seq 4 (fun a vs => badPoint (enc.lists.map (mle · opsR) ++ [0]) ((frsVals a).getD 0 []) vs) fun _ c2 =>
  seq (k2 + 1) (badOpen φo k2 (c2 ++ opsR)) fun _ _ =>
  seq 1 (fun a vs => badPoint [mle enc.row.auditTs memR, mle enc.col.auditTs memR] ((frsVals a).getD 0 []) vs) fun _ c3 =>
  badOpen φm k3 (c3 ++ memR)

theorem badHash_card (φd φo φm : Nat → G →ₗ[F] F) (k1 k2 k3 : Nat) (enc : EncodeMemory F) (k : Nat) (w opsR memR : List F)
    (a : Transcript F G) (vs : List F) : (badHash φd φo φm k1 k2 k3 enc k w opsR memR a vs).card ≤ 6 := by
  have hp : ∀ t c vs : List F, (badPoint t c vs).card ≤ 6 := fun t c vs => (badPoint_card t c vs).trans (by omega)
  unfold badHash
  exact seq_card (fun _ _ => hp _ _ _) (fun _ _ => seq_card (badOpen_card _ _ _) fun _ _ => seq_card (fun _ _ => hp _ _ _)
    fun _ _ => seq_card (badOpen_card _ _ _) fun _ _ => seq_card (fun _ _ => hp _ _ _) fun _ _ => badOpen_card _ _ _) _ _

/-- The parameters of one polynomial commitment: one generator for scalars, and no linear relation. -/
structure GoodPc (F : Type) [Field F] [Module F G] (pc : PcParams G) : Prop where
  one : pc.gen1.generators.length = 1
  indep : Independent F (pc.gen1.h :: (pc.gen1.generators ++ pc.genN.generators))

set_option maxHeartbeats 1600000 in
theorem hash_sound (ch : Oracle F G) (params : EvalsParams G) (enc : EncodeMemory F) (commit : EncodeCommit G) (k lm : Nat)
    (he : EncOk params enc commit k lm) (ud uo um : G) (hud : params.derefs.gen1.generators = [ud])
    (huo : params.ops.gen1.generators = [uo]) (hum : params.mem.gen1.generators = [um]) (φd φo φm : Nat → G →ₗ[F] F)
    (hφd : Reads (ud :: params.derefs.genN.generators) params.derefs.gen1.h φd)
    (hφo : Reads (uo :: params.ops.genN.generators) params.ops.gen1.h φo)
    (hφm : Reads (um :: params.mem.genN.generators) params.mem.gen1.h φm)
    (hgo : 2 ^ (4 + k - (4 + k) / 2) ≤ params.ops.genN.generators.length)
    (hgm : 2 ^ (1 + lm - (1 + lm) / 2) ≤ params.mem.genN.generators.length)
    (proof : HashLayerProof F G) (k1 k2 k3 : Nat) (hk1 : proof.derefs.L.length = k1) (hk2 : proof.ops.L.length = k2)
    (hk3 : proof.mem.L.length = k3) (h3 : proof.row.1.length = 3 ∧ proof.row.2.1.length = 3 ∧ proof.col.1.length = 3 ∧
      proof.col.2.1.length = 3) (rows cols opsR memR : List F) (hro : opsR.length = k) (hrm : memR.length = lm)
    (hrows : rows.length = lm) (hcols : cols.length = lm) (g1 g2 : F) (ops mem dotp : List F) (hops : ops.length = 12)
    (hmem : mem.length = 4) (derefs : List G) (w : List F) (hw : w = wit φd (3 + k) derefs) (tr tr' : Transcript F G)
    (h : hashLayerVerify ch params proof rows cols opsR memR g1 g2
      ⟨mem.getD 0 0, ops.take 3, (ops.drop 3).take 3, mem.getD 1 0⟩
      ⟨mem.getD 2 0, (ops.drop 6).take 3, (ops.drop 9).take 3, mem.getD 3 0⟩ dotp commit derefs tr = .ok ((), tr')) :
    ∃ a b, Seg ch tr tr' (3 + (k1 + 1 + (4 + (k2 + 1 + (1 + (k3 + 1)))))) a b ∧
      ((∀ y ∈ opsR, y ≠ 1) → (∀ y ∈ memR, y ≠ 1) → HitT ch (badHash φd φo φm k1 k2 k3 enc k w opsR memR) tr tr' ∨
        (ops = (opsXs g1 g2 enc k w).map (mle · opsR) ∧ dotp = dotpAt (dotXs enc k w) opsR ∧
          mem = (memXs g1 g2 enc rows cols).map (mle · memR))) := by
  have hwl : w.length = 2 ^ (3 + k) := by rw [hw, wit_length]
  have hwl8 : w.length = 8 * 2 ^ k := by rw [hwl, pow_add]; norm_num
  have hbl : ∀ i < 8, (block k w i).length = 2 ^ k := fun i hi => block_length k 8 w hwl8 i hi
  unfold hashLayerVerify at h
  obtain ⟨_, _, h1, h⟩ := bind_inv h
  obtain rfl := say_inv h1
  obtain ⟨_, _, h1, h⟩ := bind_inv h
  obtain ⟨hd9, rfl⟩ := ensure_inv h1
  obtain ⟨_, _, h1, h⟩ := bind_inv h
  obtain ⟨hd3, rfl⟩ := ensure_inv h1
  obtain ⟨_, _, h1, h⟩ := bind_inv h
  obtain rfl := say_inv h1
  obtain ⟨⟨c1, e1⟩, t1, f1, h⟩ := bind_inv h
  obtain ⟨_, t2, o1, h⟩ := bind_inv h
  obtain ⟨_, _, h1, h⟩ := bind_inv h
  obtain ⟨hv3, rfl⟩ := ensure_inv h1
  obtain ⟨_, _, h1, h⟩ := bind_inv h
  obtain ⟨hdot, rfl⟩ := ensure_inv h1
  obtain ⟨⟨c2, e2⟩, t3, f2, h⟩ := bind_inv h
  obtain ⟨_, t4, o2, h⟩ := bind_inv h
  obtain ⟨⟨c3, e3⟩, t5, f3, h⟩ := bind_inv h
  obtain ⟨_, t6, o3, h⟩ := bind_inv h
  obtain ⟨_, _, h1, h⟩ := bind_inv h
  obtain ⟨b1, rfl⟩ := orPanic_inv h1
  obtain ⟨b2, rfl⟩ := orPanic_inv h
  simp only [decide_eq_true_eq] at hd9 hd3 hv3
  obtain ⟨hdr, hdr3⟩ := hd3
  have hdc3 : proof.derefCol.length = 3 := by rw [← hdr, hdr3]
  obtain ⟨T1, hT1⟩ : ∃ T, T = (List.range 8).map fun i => mle (block k w i) opsR := ⟨_, rfl⟩
  obtain ⟨T2, hT2⟩ : ∃ T, T = enc.lists.map (mle · opsR) ++ [0] := ⟨_, rfl⟩
  obtain ⟨T3, hT3⟩ : ∃ T, T = [mle enc.row.auditTs memR, mle enc.col.auditTs memR] := ⟨_, rfl⟩
  have hn1 : Nat.clog 2 (proof.derefRow ++ proof.derefCol).length = 2 + 1 := by
    rw [List.length_append, hdr3, hdc3]; decide
  have hl15 : (proof.row.1 ++ proof.row.2.1 ++ proof.col.1 ++ proof.col.2.1 ++ proof.vals).length = 15 := by
    simp only [List.length_append, h3.1, h3.2.1, h3.2.2.1, h3.2.2.2, hv3]
  have hn2 : Nat.clog 2 (proof.row.1 ++ proof.row.2.1 ++ proof.col.1 ++ proof.col.2.1 ++ proof.vals).length = 3 + 1 := by
    rw [hl15]; decide
  have hn3 : Nat.clog 2 [proof.row.2.2, proof.col.2.2].length = 0 + 1 := Nat.clog_pow 2 1 (by norm_num)
  obtain ⟨m1, s1, hE1, q1⟩ := fold_sound f1 hn1 T1 (by rw [hT1]; simp)
  obtain ⟨m2, s2, hE2, q2⟩ := fold_sound f2 hn2 T2 (by rw [hT2]; simp [he.lists_len.1])
  obtain ⟨m3, s3, hE3, q3⟩ := fold_sound f3 hn3 T3 (by rw [hT3]; simp)
  have len1 : (c1 ++ opsR).length = 3 + k := by rw [List.length_append, s1.len, hro]
  have len2 : (c2 ++ opsR).length = 4 + k := by rw [List.length_append, s2.len, hro]
  have len3 : (c3 ++ memR).length = 1 + lm := by rw [List.length_append, s3.len, hrm]
  obtain ⟨n1, x1, z1, p1⟩ := open_sound ch params.derefs ud hud φd hφd _ c1 opsR e1 derefs proof.derefs k1 _ hk1 len1 _ _ o1
  obtain ⟨n2, x2, z2, p2⟩ := open_sound ch params.ops uo huo φo hφo _ c2 opsR e2 commit.ops proof.ops k2 _ hk2 len2 _ _ o2
  obtain ⟨n3, x3, z3, p3⟩ := open_sound ch params.mem um hum φm hφm _ c3 memR e3 commit.mem proof.mem k3 _ hk3 len3 _ _ o3
  have hpl : ∀ x ∈ ([.frs "protocol-name: Sparse polynomial hash layer proof" [], .frs "protocol-name: Derefs evaluation proof" []] :
      Transcript F G), Plain x := by simp [Plain]
  rw [List.append_assoc] at s1 q1
  have s1' := s1.shift hpl
  refine ⟨_, _, s1'.trans (z1.trans (s2.trans (z2.trans (s3.trans z3)))), fun hone hmone => ?_⟩
  have g5 := z3.pre
  have g4 := s3.pre.trans g5
  have g3' := z2.pre.trans g4
  have g2' := s2.pre.trans g3'
  have g1' := z1.pre.trans g2'
  unfold badHash
  rw [← hT1, ← hT2, ← hT3]
  rcases q1 with hit | ⟨o1', q1⟩
  · left
    refine HitT.first (hit.shift hpl fun a b => ?_) s1' g1'
    simp only [List.cons_append, List.nil_append, frsVals, List.getD_cons_succ]
    exact Finset.Subset.refl _
  rcases p1 (by intro y hy; rcases List.mem_append.1 hy with hy | hy; exacts [o1' y hy, hone y hy]) with hit | r1
  · left
    exact HitT.second s1' (HitT.first hit z1 g2')
  rcases q2 with hit | ⟨o2', q2⟩
  · left
    exact HitT.second s1' (HitT.second z1 (HitT.first hit s2 g3'))
  rcases p2 (by intro y hy; rcases List.mem_append.1 hy with hy | hy; exacts [o2' y hy, hone y hy]) with hit | r2
  · left
    exact HitT.second s1' (HitT.second z1 (HitT.second s2 (HitT.first hit z2 g4)))
  rcases q3 with hit | ⟨o3', q3⟩
  · left
    exact HitT.second s1' (HitT.second z1 (HitT.second s2 (HitT.second z2 (HitT.first hit s3 g5))))
  rcases p3 (by intro y hy; rcases List.mem_append.1 hy with hy | hy; exacts [o3' y hy, hmone y hy]) with hit | r3
  · left
    exact HitT.second s1' (HitT.second z1 (HitT.second s2 (HitT.second z2 (HitT.second s3 hit))))
  right
  -- the claimed evaluations are those of the committed lists
  have v1 : proof.derefRow ++ proof.derefCol ++ List.replicate (2 ^ (2 + 1) - (proof.derefRow ++ proof.derefCol).length) 0 = T1 := by
    apply q1
    rw [r1, ← hw]
    have hfl := blocks_flatten (2 ^ k) 8 w hwl8
    have := mle_flatten ((List.range 8).map fun i => block k w i) c1 opsR (by
      intro l hl
      obtain ⟨i, hi, rfl⟩ := List.mem_map.1 hl
      rw [hro]
      exact hbl i (by simpa using hi)) 0
    rw [List.replicate_zero, List.append_nil, show ((List.range 8).map fun i => block k w i).flatten = w from hfl, List.map_map] at this
    rw [this, hT1]
    rfl
  have v2 : proof.row.1 ++ proof.row.2.1 ++ proof.col.1 ++ proof.col.2.1 ++ proof.vals = enc.lists.map (mle · opsR) := by
    obtain ⟨x, y, hc⟩ := he.commitOps
    have hwo := wit_pack params.ops uo φo hφo enc.ops (4 + k) he.ops_len hgo commit.ops _ _ hc
    have := q2 (by rw [r2, hwo, he.ops_at c2 opsR hro, hT2, ← mle_pad _ _ 1]; rfl)
    rw [hT2, hl15] at this
    exact (List.append_inj' this (by simp)).1
  have v3 : [proof.row.2.2, proof.col.2.2] = T3 := by
    obtain ⟨x, y, hc⟩ := he.commitMem
    have hwo := wit_pack params.mem um φm hφm enc.mem (1 + lm) he.mem_len hgm commit.mem _ _ hc
    have := q3 (by rw [r3, hwo, he.mem_at c3 memR hrm, hT3])
    simpa using this
  have v1' : proof.derefRow = (rowOf k w).map (mle · opsR) ∧ proof.derefCol = (colOf k w).map (mle · opsR) := by
    rw [hT1, List.append_assoc] at v1
    have e8 : (List.range 8).map (fun i => mle (block k w i) opsR) = (rowOf k w).map (mle · opsR) ++
        ((colOf k w).map (mle · opsR) ++ [mle (block k w 6) opsR, mle (block k w 7) opsR]) := rfl
    rw [e8] at v1
    obtain ⟨u1, u2⟩ := List.append_inj v1 (by rw [hdr3]; rfl)
    exact ⟨u1, (List.append_inj u2 (by rw [hdc3]; rfl)).1⟩
  unfold EncodeMemory.lists at v2
  simp only [List.map_append, List.append_assoc] at v2
  obtain ⟨y1, v2⟩ := List.append_inj v2 (by rw [h3.1, List.length_map, he.rowA.1])
  obtain ⟨y2, v2⟩ := List.append_inj v2 (by rw [h3.2.1, List.length_map, he.rowT.1])
  obtain ⟨y3, v2⟩ := List.append_inj v2 (by rw [h3.2.2.1, List.length_map, he.colA.1])
  obtain ⟨y4, y5⟩ := List.append_inj v2 (by rw [h3.2.2.2, List.length_map, he.colT.1])
  rw [hT3] at v3
  obtain ⟨y6, y7⟩ : proof.row.2.2 = mle enc.row.auditTs memR ∧ proof.col.2.2 = mle enc.col.auditTs memR := by simpa using v3
  rw [v1'.1, y1, y2, y6] at b1
  rw [v1'.2, y3, y4, y7] at b2
  have hrowl : ∀ l ∈ rowOf k w, l.length = 2 ^ opsR.length := by
    intro l hl
    simp only [rowOf, List.mem_cons, List.not_mem_nil, or_false] at hl
    rw [hro]
    rcases hl with rfl | rfl | rfl <;> exact hbl _ (by norm_num)
  have hcoll : ∀ l ∈ colOf k w, l.length = 2 ^ opsR.length := by
    intro l hl
    simp only [colOf, List.mem_cons, List.not_mem_nil, or_false] at hl
    rw [hro]
    rcases hl with rfl | rfl | rfl <;> exact hbl _ (by norm_num)
  obtain ⟨i1, i2, i3, i4⟩ := behind_sound g1 g2 rows opsR memR enc.row.auditTs enc.row.addrs enc.row.readTs (rowOf k w) he.rowA.1
    he.rowT.1 rfl (by rw [hrows, hrm]) (by rw [he.rowE, hrm]) (by
      intro l hl
      simp only [List.mem_append] at hl
      rcases hl with (hl | hl) | hl
      · rw [hro]; exact he.rowA.2 l hl
      · rw [hro]; exact he.rowT.2 l hl
      · exact hrowl l hl) _ (by simp [hops]) (by simp [hops]) b1
  obtain ⟨j1, j2, j3, j4⟩ := behind_sound g1 g2 cols opsR memR enc.col.auditTs enc.col.addrs enc.col.readTs (colOf k w) he.colA.1
    he.colT.1 rfl (by rw [hcols, hrm]) (by rw [he.colE, hrm]) (by
      intro l hl
      simp only [List.mem_append] at hl
      rcases hl with (hl | hl) | hl
      · rw [hro]; exact he.colA.2 l hl
      · rw [hro]; exact he.colT.2 l hl
      · exact hcoll l hl) _ (by simp [hops]) (by simp [hops]) b2
  refine ⟨?_, ?_, ?_⟩
  · have split : ops = ops.take 3 ++ ((ops.drop 3).take 3 ++ ((ops.drop 6).take 3 ++ (ops.drop 9).take 3)) := by
      have e9 : (ops.drop 9).take 3 = ops.drop 9 := List.take_of_length_le (by simp [hops])
      have e6 : (ops.drop 6).take 3 ++ ops.drop 9 = ops.drop 6 := by
        have := List.take_append_drop 3 (ops.drop 6); rwa [List.drop_drop] at this
      have e3 : (ops.drop 3).take 3 ++ ops.drop 6 = ops.drop 3 := by
        have := List.take_append_drop 3 (ops.drop 3); rwa [List.drop_drop] at this
      rw [e9, e6, e3, List.take_append_drop]
    simp only at i2 i3 j2 j3
    rw [split, i2, i3, j2, j3]
    simp only [opsXs, opsOf, List.map_append, List.map_map, List.append_assoc]
    rfl
  · obtain ⟨d0, d1, d2, hdr⟩ := List.length_eq_three.1 hdr3
    obtain ⟨f0, f1, f2, hdc⟩ := List.length_eq_three.1 hdc3
    obtain ⟨g0, g1, g2, hdv⟩ := List.length_eq_three.1 hv3
    obtain ⟨u0, u1, u2, hvl⟩ := List.length_eq_three.1 he.vals.1
    rw [hdr, hdc, hdv] at hdot
    rw [List.all_eq_true] at hdot
    have w0 := hdot 0 (by simp)
    have w1 := hdot 1 (by simp)
    have w2 := hdot 2 (by simp)
    simp only [decide_eq_true_eq, Nat.zero_mul, Nat.zero_add, List.getElem?_cons_zero, List.getElem?_cons_succ, Nat.one_mul,
      Nat.reduceAdd, Nat.reduceMul] at w0 w1 w2
    rw [hdr] at v1'
    rw [hdc] at v1'
    rw [hdv, hvl] at y5
    simp only [rowOf, colOf, List.map_cons, List.map_nil, List.cons.injEq, and_true] at v1' y5
    have : dotp = [d0, f0, g0, d1, f1, g1, d2, f2, g2] := by
      apply List.ext_getElem?
      intro i
      by_cases hi : i < 9
      · have : i = 0 ∨ i = 1 ∨ i = 2 ∨ i = 3 ∨ i = 4 ∨ i = 5 ∨ i = 6 ∨ i = 7 ∨ i = 8 := by omega
        rcases this with rfl | rfl | rfl | rfl | rfl | rfl | rfl | rfl | rfl
        exacts [w0.1, w0.2.1, w0.2.2, w1.1, w1.2.1, w1.2.2, w2.1, w2.2.1, w2.2.2]
      · rw [List.getElem?_eq_none (by omega), List.getElem?_eq_none (by simp; omega)]
    rw [this]
    unfold dotpAt dotXs rowOf colOf
    rw [hvl]
    simp only [List.zip_cons_cons, List.zip_nil_right, List.flatMap_cons, List.flatMap_nil, List.cons_append, List.nil_append]
    rw [v1'.1.1, v1'.1.2.1, v1'.1.2.2, v1'.2.1, v1'.2.2.1, v1'.2.2.2, y5.1, y5.2.1, y5.2.2]
  · obtain ⟨x0, x1, x2, x3, rfl⟩ : ∃ x0 x1 x2 x3, mem = [x0, x1, x2, x3] := by
      obtain ⟨x0, m', rfl⟩ := List.exists_cons_of_length_eq_add_one hmem
      obtain ⟨x1, x2, x3, rfl⟩ := List.length_eq_three.1 (Nat.succ.inj hmem)
      exact ⟨_, _, _, _, rfl⟩
    simp only [List.getD_cons_zero, List.getD_cons_succ] at i1 i4 j1 j4
    simp only [memXs, memOf, List.cons_append, List.nil_append, List.map_cons, List.map_nil]
    rw [i1, i4, j1, j4]

end Zkp.Sc
