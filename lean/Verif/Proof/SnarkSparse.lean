/- Soundness of Spartan's evaluation argument as a whole. -/
import Verif.Proof.SnarkEval
import Verif.Proof.SpartanSparse

namespace Zkp.Sc

open Zkp.Ml Zkp.Spartan Zkp.Cp

set_option linter.unusedSectionVars false
set_option linter.unusedSimpArgs false

variable {F : Type} [Field F] {G : Type} [AddCommGroup G] [Module F G] [DecidableEq F] [DecidableEq G]

/-! ### The product layer -/

theorem circuit_sound {d : Nat} (hd : 3 ≤ d) (ch : Oracle F G) (K : Nat) (hK : 0 < K) (xs : List (List F))
    (hxs : ∀ x ∈ xs, x.length = 2 ^ K) (full : List (Dotp F))
    (hfull : ∀ d ∈ full, d.1.length = 2 ^ K ∧ d.2.1.length = 2 ^ K ∧ d.2.2.length = 2 ^ K) (proof : CircuitEvalProof F)
    (hp : ∀ l ∈ proof.layers, ∀ p ∈ l.polys, p.length ≤ d + 1) (claims dotp : List F) (hcl : claims.length = xs.length)
    (hdl : dotp.length = 2 * full.length) (out od pt : List F) (tr tr' : Transcript F G)
    (h : circuitEvalVerify ch proof claims dotp (2 ^ K) tr = .ok ((out, od, pt), tr')) :
    ∃ a b, Seg ch tr tr' (layersNum xs.length full.length K K) a b ∧ pt = layersPoint xs.length full.length K [] b ∧
      pt.length = K ∧ out.length = xs.length ∧ od.length ≤ 3 * full.length ∧
      (HitT ch (badLayers d xs full dotp K claims []) tr tr' ∨
        ((∀ y ∈ pt, y ≠ 1) ∧ (out = xs.map (mle · pt) → od = dotpAt full pt →
          claims = xs.map List.prod ∧ dotp = halfSums full))) := by
  unfold circuitEvalVerify at h
  rw [Nat.clog_pow 2 K (by norm_num), hcl] at h
  obtain ⟨_, _, h1, h⟩ := bind_inv h
  obtain ⟨hl, rfl⟩ := ensure_inv h1
  simp only [decide_eq_true_eq] at hl
  obtain ⟨a, b, s, p1, p2, p3, _, p4, q⟩ := layers_sound hd ch K xs hxs full hfull proof dotp hdl K le_rfl proof.layers hl hp claims []
    [] hcl (by simp) out od pt tr tr' (by rw [Nat.sub_self]; exact h)
  refine ⟨a, b, s, p1, p2, p3, p4 hK, q.imp id ?_⟩
  rintro ⟨r1, r2⟩
  refine ⟨r1 hK, fun e1 e2 => ?_⟩
  obtain ⟨u1, u2⟩ := r2 e1 fun _ => e2
  refine ⟨?_, u2 hK⟩
  rw [u1]
  exact List.map_congr_left fun x hx => halve_end x K (hxs x hx)

theorem memClaims_inv (name : String) (c : MemClaims F) (tr tr' : Transcript F G) (h : memClaims name c tr = .ok ((), tr')) :
    c.init * c.write.prod = c.read.prod * c.audit ∧ ∃ l1 l2 l3 l4, tr' = tr ++ [.fr l1 c.init, .frs l2 c.read, .frs l3 c.write,
      .fr l4 c.audit] := by
  unfold memClaims at h
  obtain ⟨_, _, h1, h⟩ := bind_inv h
  obtain ⟨hl, rfl⟩ := ensure_inv h1
  obtain ⟨_, _, h1, h⟩ := bind_inv h
  obtain rfl := say_inv h1
  obtain ⟨_, _, h1, h⟩ := bind_inv h
  obtain rfl := say_inv h1
  obtain ⟨_, _, h1, h⟩ := bind_inv h
  obtain rfl := say_inv h1
  obtain rfl := say_inv h
  have e : ∀ a b c d : Msg F G, tr ++ [a] ++ [b] ++ [c] ++ [d] = tr ++ [a, b, c, d] := by simp
  exact ⟨by simpa using hl, _, _, _, _, e _ _ _ _⟩

theorem dotpClaims_inv (x0 x1 x2 y0 y1 y2 e0 e1 e2 : F) (d : List F) (tr tr' : Transcript F G)
    (h : dotpClaims [x0, x1, x2] [y0, y1, y2] [e0, e1, e2] tr = .ok (d, tr')) :
    d = [x0, y0, x1, y1, x2, y2] ∧ (x0 + y0 = e0 ∧ x1 + y1 = e1 ∧ x2 + y2 = e2) ∧
      tr' = tr ++ [.fr "claim_eval_dotp_left" x0, .fr "claim_eval_dotp_right" y0, .fr "claim_eval_dotp_left" x1,
        .fr "claim_eval_dotp_right" y1, .fr "claim_eval_dotp_left" x2, .fr "claim_eval_dotp_right" y2] := by
  simp only [dotpClaims] at h
  obtain ⟨_, _, h1, h⟩ := bind_inv h
  obtain ⟨l0, rfl⟩ := ensure_inv h1
  obtain ⟨_, _, h1, h⟩ := bind_inv h
  obtain rfl := say_inv h1
  obtain ⟨_, _, h1, h⟩ := bind_inv h
  obtain rfl := say_inv h1
  obtain ⟨r0, _, h1, h⟩ := bind_inv h
  obtain ⟨rfl, rfl⟩ := pure_inv h
  obtain ⟨_, _, h2, h1⟩ := bind_inv h1
  obtain ⟨l1, rfl⟩ := ensure_inv h2
  obtain ⟨_, _, h2, h1⟩ := bind_inv h1
  obtain rfl := say_inv h2
  obtain ⟨_, _, h2, h1⟩ := bind_inv h1
  obtain rfl := say_inv h2
  obtain ⟨r1, _, h2, h1⟩ := bind_inv h1
  obtain ⟨rfl, rfl⟩ := pure_inv h1
  obtain ⟨_, _, h3, h2⟩ := bind_inv h2
  obtain ⟨l2, rfl⟩ := ensure_inv h3
  obtain ⟨_, _, h3, h2⟩ := bind_inv h2
  obtain rfl := say_inv h3
  obtain ⟨_, _, h3, h2⟩ := bind_inv h2
  obtain rfl := say_inv h3
  obtain ⟨r2, _, h3, h2⟩ := bind_inv h2
  obtain ⟨rfl, rfl⟩ := pure_inv h2
  obtain ⟨rfl, rfl⟩ := pure_inv h3
  exact ⟨rfl, ⟨by simpa using l0, by simpa using l1, by simpa using l2⟩, by simp⟩

/-- The bad challenges of the product circuits over the entries; the claims are read off the transcript. -/
noncomputable def badOps (d k : Nat) (xs : List (List F)) (full : List (Dotp F)) (a : Transcript F G) (vs : List F) : Finset F :=
  badLayers d xs full ((frVals (a.take 15)).drop 4) k (frsVals (a.take 15)).flatten [] (a.drop 15) vs

/-- The claims about the memories, read off the transcript. -/
def memSaid (a : Transcript F G) : List F := (frVals (a.take 15)).take 4

theorem product_sound' {d : Nat} (hd : 3 ≤ d) (ch : Oracle F G) (k lm : Nat) (hk : 0 < k) (hlm : 0 < lm)
    (X1 X2 X3 X4 : List (List F)) (m1 m2 m3 m4 : List F) (hX : X1.length = 3 ∧ X2.length = 3 ∧ X3.length = 3 ∧ X4.length = 3)
    (hxs : ∀ x ∈ X1 ++ X2 ++ (X3 ++ X4), x.length = 2 ^ k) (hms : ∀ x ∈ [m1, m2, m3, m4], x.length = 2 ^ lm)
    (full : List (Dotp F)) (hf3 : full.length = 3)
    (hfull : ∀ d ∈ full, d.1.length = 2 ^ k ∧ d.2.1.length = 2 ^ k ∧ d.2.2.length = 2 ^ k) (proof : ProductLayerProof F)
    (hp : ∀ l ∈ proof.ops.layers ++ proof.memory.layers, ∀ p ∈ l.polys, p.length ≤ d + 1) (ea eb ec : F)
    (ops dotp opsR mem md memR : List F) (tr tr' : Transcript F G)
    (h : productLayerVerify ch proof (2 ^ k) (2 ^ lm) [ea, eb, ec] tr = .ok (((ops, dotp, opsR), (mem, md, memR)), tr')) :
    ∃ a b a' b' tr1, Seg ch tr tr1 (layersNum 12 3 k k) a b ∧ Seg ch tr1 tr' (layersNum 4 0 lm lm) a' b' ∧
      opsR = layersPoint 12 3 k [] b ∧ memR = layersPoint 4 0 lm [] b' ∧ opsR.length = k ∧ memR.length = lm ∧
      (HitT ch (badOps d k (X1 ++ X2 ++ (X3 ++ X4)) full) tr tr1 ∨ HitT ch (badLayers d [m1, m2, m3, m4] [] [] lm (memSaid a) []) tr1 tr' ∨
        ((∀ y ∈ opsR, y ≠ 1) ∧ (∀ y ∈ memR, y ≠ 1) ∧ (ops = (X1 ++ X2 ++ (X3 ++ X4)).map (mle · opsR) → dotp = dotpAt full opsR →
          mem = [m1, m2, m3, m4].map (mle · memR) →
          m1.prod * (X2.map List.prod).prod = (X1.map List.prod).prod * m2.prod ∧
          m3.prod * (X4.map List.prod).prod = (X3.map List.prod).prod * m4.prod ∧ [ea, eb, ec] = full.map sumDotp))) := by
  unfold productLayerVerify at h
  obtain ⟨_, _, h1, h⟩ := bind_inv h
  obtain rfl := say_inv h1
  obtain ⟨_, _, h1, h⟩ := bind_inv h
  obtain ⟨hl, rfl⟩ := ensure_inv h1
  simp only [decide_eq_true_eq] at hl
  obtain ⟨l1, l2, l3, l4, l5, l6, -⟩ := hl
  obtain ⟨_, _, h1, h⟩ := bind_inv h
  obtain ⟨b1, s1, s2, s3, s4, rfl⟩ := memClaims_inv _ _ _ _ h1
  obtain ⟨_, _, h1, h⟩ := bind_inv h
  obtain ⟨b2, s5, s6, s7, s8, rfl⟩ := memClaims_inv _ _ _ _ h1
  obtain ⟨x0, x1, x2, hx⟩ := List.length_eq_three.1 l5
  obtain ⟨y0, y1, y2, hy⟩ := List.length_eq_three.1 l6
  rw [hx, hy] at h
  obtain ⟨dl, _, h1, h⟩ := bind_inv h
  obtain ⟨hdl, ⟨he0, he1, he2⟩, rfl⟩ := dotpClaims_inv _ _ _ _ _ _ _ _ _ _ _ _ h1
  obtain ⟨⟨o1, o2, o3⟩, t1, c1, h⟩ := bind_inv h
  obtain ⟨⟨p1, p2, p3⟩, t2, c2, h⟩ := bind_inv h
  obtain ⟨hq, rfl⟩ := pure_inv h
  simp only [Prod.mk.injEq] at hq
  obtain ⟨⟨rfl, rfl, rfl⟩, rfl, rfl, rfl⟩ := hq
  obtain ⟨XS, hXS⟩ : ∃ XS, XS = X1 ++ X2 ++ (X3 ++ X4) := ⟨_, rfl⟩
  rw [← hXS] at hxs ⊢
  have hxl : XS.length = 12 := by rw [hXS]; simp [hX.1, hX.2.1, hX.2.2.1, hX.2.2.2]
  obtain ⟨a, b, sa, e1, e2, e3, -, q⟩ := circuit_sound hd ch k hk XS hxs full hfull proof.ops
    (fun l hl => hp l (List.mem_append_left _ hl)) _ dl (by rw [hxl]; simp [l1, l2, l3, l4])
    (by rw [hdl, hf3]; rfl) _ _ _ _ _ c1
  obtain ⟨a', b', sa', e1', e2', e3', e4', q'⟩ := circuit_sound hd ch lm hlm [m1, m2, m3, m4] hms [] (by simp) proof.memory
    (fun l hl => hp l (List.mem_append_right _ hl)) _ [] rfl rfl _ _ _ _ _ c2
  simp only [List.append_assoc] at sa q
  obtain ⟨M, hM⟩ : ∃ M : Transcript F G, M = [.frs "protocol-name: Sparse polynomial product layer proof" []] ++
    ([.fr s1 proof.row.init, .frs s2 proof.row.read, .frs s3 proof.row.write, .fr s4 proof.row.audit] ++
      ([.fr s5 proof.col.init, .frs s6 proof.col.read, .frs s7 proof.col.write, .fr s8 proof.col.audit] ++
        [.fr "claim_eval_dotp_left" x0, .fr "claim_eval_dotp_right" y0, .fr "claim_eval_dotp_left" x1,
        .fr "claim_eval_dotp_right" y1, .fr "claim_eval_dotp_left" x2, .fr "claim_eval_dotp_right" y2])) := ⟨_, rfl⟩
  rw [← hM] at sa q
  have hpl : ∀ x ∈ M, Plain x := by rw [hM]; simp [Plain]
  have hM15 : M.length = 15 := by rw [hM]; rfl
  have hfr : frVals M = [proof.row.init, proof.row.audit, proof.col.init, proof.col.audit, x0, y0, x1, y1, x2, y2] := by rw [hM]; rfl
  have hfrs : frsVals M = [[], proof.row.read, proof.row.write, proof.col.read, proof.col.write] := by rw [hM]; rfl
  obtain ⟨n, hn⟩ : ∃ n, layersNum 12 3 k k = n + 1 := by
    obtain ⟨k', rfl⟩ : ∃ k', k = k' + 1 := ⟨k - 1, by omega⟩
    exact ⟨layersNum 12 3 (k' + 1) (k' + 1) - 1, by simp only [layersNum]; omega⟩
  rw [hxl, hf3] at sa e1
  rw [hn] at sa ⊢
  have sa1 := sa.shift hpl
  refine ⟨_, _, _, _, _, sa1, sa', e1, e1', e2, e2', ?_⟩
  have hms : memSaid (M ++ a) = [proof.row.init, proof.row.audit, proof.col.init, proof.col.audit] := by
    unfold memSaid
    rw [← hM15, List.take_left, hfr]
    rfl
  rw [hms]
  rcases q with hit | ⟨u1, u2⟩
  · left
    refine hit.shift hpl fun a b => ?_
    unfold badOps
    rw [← hM15, List.take_left, List.drop_left, hfr, hfrs, hdl]
    simp only [List.drop_succ_cons, List.drop_zero, List.flatten_cons, List.flatten_nil, List.nil_append, List.append_nil,
      List.append_assoc]
    exact Finset.Subset.refl _
  rcases q' with hit | ⟨v1, v2⟩
  · right; left
    exact hit
  right; right
  refine ⟨u1, v1, fun w1 w2 w3 => ?_⟩
  obtain ⟨y1', y2'⟩ := u2 w1 w2
  obtain ⟨y3', -⟩ := v2 w3 (List.length_eq_zero_iff.1 (Nat.le_zero.1 e4'))
  rw [hXS] at y1'
  simp only [List.map_append, List.append_assoc] at y1'
  obtain ⟨z1, y1'⟩ := List.append_inj y1' (by rw [l1, List.length_map, hX.1])
  obtain ⟨z2, y1'⟩ := List.append_inj y1' (by rw [l2, List.length_map, hX.2.1])
  obtain ⟨z3, z4⟩ := List.append_inj y1' (by rw [l3, List.length_map, hX.2.2.1])
  simp only [List.map_cons, List.map_nil, List.cons.injEq, and_true] at y3'
  rw [z1, z2, y3'.1, y3'.2.1] at b1
  rw [z3, z4, y3'.2.2.1, y3'.2.2.2] at b2
  refine ⟨b1, b2, ?_⟩
  obtain ⟨f0, f1, f2, rfl⟩ := List.length_eq_three.1 hf3
  rw [hdl] at y2'
  simp only [halfSums, List.flatMap_cons, List.flatMap_nil, List.cons_append, List.nil_append, List.cons.injEq, and_true] at y2'
  obtain ⟨r0, r1, r2, r3, r4, r5⟩ := y2'
  have hs : ∀ d ∈ [f0, f1, f2], sumDotp (halfDotp d).1 + sumDotp (halfDotp d).2 = sumDotp d := fun d hd' =>
    half_sum d _ (hfull d hd').1 (hfull d hd').2.1 (hfull d hd').2.2
  simp only [List.map_cons, List.map_nil]
  rw [← he0, ← he1, ← he2, r0, r1, r2, r3, r4, r5, hs f0 (by simp), hs f1 (by simp), hs f2 (by simp)]

/-! ### The two memories -/

/-- The first cells of a memory and the cells written. -/
def cellsIn (lm : Nat) (ts : AddrTimestamps F) (mem : List F) (es : List (List F)) : Multiset (F × F × F) :=
  Spartan.cells ((List.range (2 ^ lm)).map fun (i : Nat) => (i : F)) mem (List.replicate (2 ^ lm) 0) +
    (triples ts.addrs ts.readTs es).foldr (fun x s => Spartan.cells x.1.1 x.2 (x.1.2.map (· + 1)) + s) 0

/-- The cells read and the last cells of a memory. -/
def cellsOut (lm : Nat) (ts : AddrTimestamps F) (mem : List F) (es : List (List F)) : Multiset (F × F × F) :=
  (triples ts.addrs ts.readTs es).foldr (fun x s => Spartan.cells x.1.1 x.2 x.1.2 + s) 0 +
    Spartan.cells ((List.range (2 ^ lm)).map fun (i : Nat) => (i : F)) mem ts.auditTs

theorem cells_card_le (a v t : List F) : Multiset.card (Spartan.cells a v t) ≤ a.length := by
  simp only [Spartan.cells, Multiset.coe_card, List.length_zip]
  omega

theorem foldr_card_le {α : Type} (f : α → Multiset (F × F × F)) (n : Nat) (l : List α) (h : ∀ x ∈ l, Multiset.card (f x) ≤ n) :
    Multiset.card (l.foldr (fun x s => f x + s) 0) ≤ l.length * n := by
  induction l with
  | nil => simp
  | cons x l ih =>
    rw [List.foldr_cons, Multiset.card_add, List.length_cons, Nat.succ_mul]
    have := ih fun y hy => h y (by simp [hy])
    have := h x (by simp)
    omega

theorem triples_length_le (A T E : List (List F)) : (triples A T E).length ≤ A.length := by
  simp only [triples, List.length_zip]; omega

theorem triples_mem {A T E : List (List F)} {x : (List F × List F) × List F} (h : x ∈ triples A T E) :
    x.1.1 ∈ A ∧ x.1.2 ∈ T ∧ x.2 ∈ E := by
  obtain ⟨h1, h2⟩ := List.of_mem_zip h
  obtain ⟨h3, h4⟩ := List.of_mem_zip h1
  exact ⟨h3, h4, h2⟩

theorem cellsIn_card (k lm : Nat) (ts : AddrTimestamps F) (hA : ts.addrs.length = 3 ∧ ∀ l ∈ ts.addrs, l.length = 2 ^ k) (mem : List F)
    (es : List (List F)) : Multiset.card (cellsIn lm ts mem es) ≤ 2 ^ lm + 3 * 2 ^ k := by
  unfold cellsIn
  rw [Multiset.card_add]
  have h1 := cells_card_le ((List.range (2 ^ lm)).map fun (i : Nat) => (i : F)) mem (List.replicate (2 ^ lm) 0)
  have h2 := foldr_card_le (fun x : (List F × List F) × List F => Spartan.cells x.1.1 x.2 (x.1.2.map (· + 1))) (2 ^ k)
    (triples ts.addrs ts.readTs es) fun x hx => (cells_card_le _ _ _).trans (hA.2 _ (triples_mem hx).1).le
  have h3 := Nat.mul_le_mul_right (2 ^ k) (triples_length_le ts.addrs ts.readTs es)
  rw [hA.1] at h3
  simp only [List.length_map, List.length_range] at h1
  omega

theorem cellsOut_card (k lm : Nat) (ts : AddrTimestamps F) (hA : ts.addrs.length = 3 ∧ ∀ l ∈ ts.addrs, l.length = 2 ^ k) (mem : List F)
    (es : List (List F)) : Multiset.card (cellsOut lm ts mem es) ≤ 2 ^ lm + 3 * 2 ^ k := by
  unfold cellsOut
  rw [Multiset.card_add]
  have h1 := cells_card_le ((List.range (2 ^ lm)).map fun (i : Nat) => (i : F)) mem ts.auditTs
  have h2 := foldr_card_le (fun x : (List F × List F) × List F => Spartan.cells x.1.1 x.2 x.1.2) (2 ^ k)
    (triples ts.addrs ts.readTs es) fun x hx => (cells_card_le _ _ _).trans (hA.2 _ (triples_mem hx).1).le
  have h3 := Nat.mul_le_mul_right (2 ^ k) (triples_length_le ts.addrs ts.readTs es)
  rw [hA.1] at h3
  simp only [List.length_map, List.length_range] at h1
  omega

theorem cells_bump (a v t : List F) : Spartan.cells a v (t.map (· + 1)) =
    (Spartan.cells a v t).map fun c => (c.1, c.2.1, c.2.2 + 1) := by
  unfold Spartan.cells
  rw [Multiset.map_coe]
  congr 1
  apply List.ext_getElem?
  intro i
  simp only [List.getElem?_map, List.getElem?_zip_eq_some, List.zip, List.getElem?_zipWith]
  cases a[i]? <;> cases v[i]? <;> cases t[i]? <;> simp

theorem foldr_bump {α : Type} (f : α → Multiset (F × F × F)) (g : F × F × F → F × F × F) (l : List α) :
    (l.foldr (fun x s => (f x).map g + s) 0) = (l.foldr (fun x s => f x + s) 0).map g := by
  induction l with
  | nil => simp
  | cons x l ih => simp [ih]

theorem mem_foldr {α : Type} (f : α → Multiset (F × F × F)) (l : List α) (x : α) (hx : x ∈ l) (c : F × F × F) (hc : c ∈ f x) :
    c ∈ l.foldr (fun x s => f x + s) 0 := by
  induction l with
  | nil => simp at hx
  | cons y l ih =>
    rw [List.foldr_cons, Multiset.mem_add]
    rcases List.mem_cons.1 hx with rfl | hx
    · exact Or.inl hc
    · exact Or.inr (ih hx)

theorem cast_inj {n : Nat} (hchar : ∀ j : Nat, 0 < j → j ≤ n → (j : F) ≠ 0) (a b : Nat) (ha : a ≤ n) (hb : b ≤ n)
    (h : (a : F) = b) : a = b := by
  rcases Nat.lt_trichotomy a b with hlt | rfl | hlt
  · exact absurd (by rw [Nat.cast_sub hlt.le, h, sub_self]) (hchar (b - a) (by omega) (by omega))
  · rfl
  · exact absurd (by rw [Nat.cast_sub hlt.le, h, sub_self]) (hchar (a - b) (by omega) (by omega))

/-- If the multiset hashes agree, every committed value is the one in the memory. -/
theorem memory_sound (k lm : Nat) (ts : AddrTimestamps F) (hA : ts.addrs.length = 3 ∧ ∀ l ∈ ts.addrs, l.length = 2 ^ k)
    (hT : ts.readTs.length = 3 ∧ ∀ l ∈ ts.readTs, l.length = 2 ^ k) (hE : ts.auditTs.length = 2 ^ lm)
    (hI : ∀ l ∈ ts.addrIndex, ∀ a ∈ l, a < 2 ^ lm) (hAI : ts.addrs = ts.addrIndex.map (fun l => l.map fun (a : Nat) => (a : F)))
    (rows : List F) (hrows : rows.length = lm) (es : List (List F)) (hes : es.length = 3 ∧ ∀ l ∈ es, l.length = 2 ^ k)
    (hchar : ∀ j : Nat, 0 < j → j ≤ 2 ^ lm + 3 * 2 ^ k → (j : F) ≠ 0) (g1 g2 : F)
    (h1 : g1 ∉ badG1 (cellsIn lm ts (evalEq rows) es) (cellsOut lm ts (evalEq rows) es))
    (h2 : g2 ∉ badG2 (cellsIn lm ts (evalEq rows) es) (cellsOut lm ts (evalEq rows) es) g1)
    (h : (initList g1 g2 (evalEq rows)).prod * (((triples ts.addrs ts.readTs es).map (writeList g1 g2)).map List.prod).prod =
      (((triples ts.addrs ts.readTs es).map (readList g1 g2)).map List.prod).prod *
        (auditList g1 g2 (evalEq rows) ts.auditTs).prod) :
    es = ts.addrIndex.map (readVals (evalEq rows)) := by
  have hml : (evalEq rows).length = 2 ^ lm := by rw [evalEq_length, hrows]
  have hs := fingerprint_sound _ _ g1 g2 h1 h2 (by
    unfold cellsIn cellsOut
    rw [fingerprint_add, fingerprint_add, fingerprint_foldr, fingerprint_foldr]
    simp only [fingerprint_cells]
    rw [List.map_map, List.map_map] at h
    unfold initList auditList at h
    rw [hml] at h
    exact h)
  have hwr : (triples ts.addrs ts.readTs es).foldr (fun x s => Spartan.cells x.1.1 x.2 (x.1.2.map (· + 1)) + s) 0 =
      ((triples ts.addrs ts.readTs es).foldr (fun x s => Spartan.cells x.1.1 x.2 x.1.2 + s) 0).map
        fun c => (c.1, c.2.1, c.2.2 + 1) := by
    rw [← foldr_bump]
    simp only [cells_bump]
  obtain ⟨R, hR⟩ : ∃ R, R = (triples ts.addrs ts.readTs es).foldr (fun x s => Spartan.cells x.1.1 x.2 x.1.2 + s) 0 := ⟨_, rfl⟩
  unfold cellsIn cellsOut at hs
  rw [hwr, ← hR, ← hml] at hs
  have hcard : Multiset.card R ≤ 3 * 2 ^ k := by
    have h2 := foldr_card_le (fun x : (List F × List F) × List F => Spartan.cells x.1.1 x.2 x.1.2) (2 ^ k)
      (triples ts.addrs ts.readTs es) fun x hx => (cells_card_le _ _ _).trans (hA.2 _ (triples_mem hx).1).le
    rw [← hR] at h2
    have h3 := Nat.mul_le_mul_right (2 ^ k) (triples_length_le ts.addrs ts.readTs es)
    rw [hA.1] at h3
    omega
  have key := C49_sound (evalEq rows) ts.auditTs (by rw [hE, hml]) R (fun j h1 h2 => hchar j h1 (by omega)) hs
  have hlen : ts.addrIndex.length = 3 := by rw [hAI, List.length_map] at hA; exact hA.1
  apply List.ext_getElem (by rw [hes.1, List.length_map, hlen])
  intro i hi1 hi2
  have hi3 : i < 3 := by rw [hes.1] at hi1; exact hi1
  rw [List.getElem_map]
  have hai : i < ts.addrs.length := by rw [hA.1]; exact hi3
  have hti : i < ts.readTs.length := by rw [hT.1]; exact hi3
  have hii : i < ts.addrIndex.length := by rw [hlen]; exact hi3
  have haddr : ts.addrs[i] = (ts.addrIndex[i]).map fun (a : Nat) => (a : F) := by
    simp [hAI]
  have hel : es[i].length = 2 ^ k := hes.2 _ (List.getElem_mem _)
  have hal : ts.addrs[i].length = 2 ^ k := hA.2 _ (List.getElem_mem _)
  have htl : ts.readTs[i].length = 2 ^ k := hT.2 _ (List.getElem_mem _)
  have hil : ts.addrIndex[i].length = 2 ^ k := by rw [haddr, List.length_map] at hal; exact hal
  apply List.ext_getElem (by rw [hel]; simp [readVals, hil])
  intro j hj1 hj2
  have hj : j < 2 ^ k := by rw [hel] at hj1; exact hj1
  have hmem : ((ts.addrs[i], ts.readTs[i]), es[i]) ∈ triples ts.addrs ts.readTs es := by
    unfold triples
    rw [List.mem_iff_getElem]
    exact ⟨i, by simp [hA.1, hT.1, hes.1, hi3], by simp⟩
  have hc : (ts.addrs[i][j], es[i][j], ts.readTs[i][j]) ∈ R := by
    rw [hR]
    refine mem_foldr _ _ _ hmem _ ?_
    rw [mem_cells_iff _ _ _ (by rw [hel, hal]) (by rw [htl, hal])]
    exact ⟨j, List.getElem?_eq_getElem _, List.getElem?_eq_getElem _, List.getElem?_eq_getElem _⟩
  obtain ⟨n, hn1, hn2⟩ := key _ hc
  simp only at hn1 hn2
  have hn : n < 2 ^ lm := by rw [← hml]; exact (List.getElem?_eq_some_iff.1 hn2).1
  have hji : j < ts.addrIndex[i].length := by rw [hil]; exact hj
  have hlt : ts.addrIndex[i][j] < 2 ^ lm := hI _ (List.getElem_mem _) _ (List.getElem_mem _)
  have hcast : ((ts.addrIndex[i][j] : Nat) : F) = n := by
    rw [← hn1]
    simp [haddr]
  have := cast_inj hchar _ _ (by omega) (by omega) hcast
  have hg : (readVals (evalEq rows) ts.addrIndex[i])[j]'hj2 = (evalEq rows).getD ts.addrIndex[i][j] 0 := by simp [readVals]
  rw [hg, this, List.getD_eq_getElem?_getD, hn2]
  rfl

/-! ### The whole argument -/

/-- The bad values of the two hash parameters. -/
noncomputable def badGamma (k lm : Nat) (enc : EncodeMemory F) (rows cols w : List F) : List F → Finset F
  | [] => badG1 (cellsIn lm enc.row (evalEq rows) (rowOf k w)) (cellsOut lm enc.row (evalEq rows) (rowOf k w)) ∪
      badG1 (cellsIn lm enc.col (evalEq cols) (colOf k w)) (cellsOut lm enc.col (evalEq cols) (colOf k w))
  | g1 :: _ => badG2 (cellsIn lm enc.row (evalEq rows) (rowOf k w)) (cellsOut lm enc.row (evalEq rows) (rowOf k w)) g1 ∪
      badG2 (cellsIn lm enc.col (evalEq cols) (colOf k w)) (cellsOut lm enc.col (evalEq cols) (colOf k w)) g1

theorem badGamma_card (k lm : Nat) (enc : EncodeMemory F) (hr : enc.row.addrs.length = 3 ∧ ∀ l ∈ enc.row.addrs, l.length = 2 ^ k)
    (hc : enc.col.addrs.length = 3 ∧ ∀ l ∈ enc.col.addrs, l.length = 2 ^ k) (rows cols w vs : List F) :
    (badGamma k lm enc rows cols w vs).card ≤ 16 * (2 ^ lm + 3 * 2 ^ k) ^ 2 := by
  have i1 := cellsIn_card k lm enc.row hr (evalEq rows) (rowOf k w)
  have i2 := cellsOut_card k lm enc.row hr (evalEq rows) (rowOf k w)
  have j1 := cellsIn_card k lm enc.col hc (evalEq cols) (colOf k w)
  have j2 := cellsOut_card k lm enc.col hc (evalEq cols) (colOf k w)
  have hN : 0 < 2 ^ lm + 3 * 2 ^ k := by positivity
  generalize 2 ^ lm + 3 * 2 ^ k = N at *
  cases vs with
  | nil =>
    refine (Finset.card_union_le _ _).trans ?_
    have a := badG1_card (cellsIn lm enc.row (evalEq rows) (rowOf k w)) (cellsOut lm enc.row (evalEq rows) (rowOf k w))
    have b := badG1_card (cellsIn lm enc.col (evalEq cols) (colOf k w)) (cellsOut lm enc.col (evalEq cols) (colOf k w))
    have a' := Nat.pow_le_pow_left (Nat.add_le_add i1 i2) 2
    have b' := Nat.pow_le_pow_left (Nat.add_le_add j1 j2) 2
    have e : (N + N) ^ 2 = 4 * N ^ 2 := by ring
    rw [e] at a' b'
    omega
  | cons g1 vs =>
    refine (Finset.card_union_le _ _).trans ?_
    refine (Nat.add_le_add ((fewRoots_card _ _).trans (max_le i1 i2)) ((fewRoots_card _ _).trans (max_le j1 j2))).trans ?_
    nlinarith

/-- The bad challenges of the evaluation argument. -/
noncomputable def badEval (d : Nat) (φd φo φm : Nat → G →ₗ[F] F) (k1 k2 k3 : Nat) (enc : EncodeMemory F) (k lm : Nat)
    (rows cols : List F) : Transcript F G → List F → Finset F :=
  seq 2 (fun a vs => badGamma k lm enc rows cols (wit φd (3 + k) ((ptsVals a).getD 0 [])) vs) fun a g =>
  seq (layersNum 12 3 k k) (badOps d k (opsXs (g.getD 0 0) (g.getD 1 0) enc k (wit φd (3 + k) ((ptsVals a).getD 0 [])))
    (dotXs enc k (wit φd (3 + k) ((ptsVals a).getD 0 [])))) fun a' b =>
  seq (layersNum 4 0 lm lm) (badLayers d (memXs (g.getD 0 0) (g.getD 1 0) enc rows cols) [] [] lm (memSaid a') []) fun _ b' =>
  badHash φd φo φm k1 k2 k3 enc k (wit φd (3 + k) ((ptsVals a).getD 0 [])) (layersPoint 12 3 k [] b) (layersPoint 4 0 lm [] b')

theorem badEval_card (d : Nat) (hd : 3 ≤ d) (φd φo φm : Nat → G →ₗ[F] F) (k1 k2 k3 : Nat) (enc : EncodeMemory F) (k lm : Nat)
    (hr : enc.row.addrs.length = 3 ∧ ∀ l ∈ enc.row.addrs, l.length = 2 ^ k)
    (hc : enc.col.addrs.length = 3 ∧ ∀ l ∈ enc.col.addrs, l.length = 2 ^ k)
    (rows cols : List F) (a : Transcript F G) (vs : List F) :
    (badEval d φd φo φm k1 k2 k3 enc k lm rows cols a vs).card ≤ d + 1 + 16 * (2 ^ lm + 3 * 2 ^ k) ^ 2 := by
  have hN : 16 ≤ 16 * (2 ^ lm + 3 * 2 ^ k) ^ 2 := by
    have : 0 < (2 ^ lm + 3 * 2 ^ k) ^ 2 := by positivity
    omega
  unfold badEval
  exact seq_card (fun _ _ => (badGamma_card k lm enc hr hc _ _ _ _).trans (by omega))
    (fun _ _ => seq_card (fun _ _ => (badLayers_card d hd _ _ _ _ _ _ _ _).trans (by omega)) fun _ _ =>
      seq_card (fun _ _ => (badLayers_card d hd _ _ _ _ _ _ _ _).trans (by omega)) fun _ _ _ _ =>
        (badHash_card _ _ _ _ _ _ _ _ _ _ _ _ _).trans (by omega)) _ _

/-- The number of challenges of the evaluation argument. -/
def evalNum (k lm k1 k2 k3 : Nat) : Nat :=
  2 + (layersNum 12 3 k k + (layersNum 4 0 lm lm + (3 + (k1 + 1 + (4 + (k2 + 1 + (1 + (k3 + 1))))))))

set_option maxHeartbeats 1600000 in
theorem sparse_sound {d : Nat} (hd : 3 ≤ d) (ch : Oracle F G) (params : EvalsParams G) (enc : EncodeMemory F)
    (commit : EncodeCommit G) (k lm : Nat) (hk : 0 < k) (hlm : 0 < lm)
    (he : EncOk params enc commit k lm) (ud uo um : G) (hud : params.derefs.gen1.generators = [ud])
    (huo : params.ops.gen1.generators = [uo]) (hum : params.mem.gen1.generators = [um]) (φd φo φm : Nat → G →ₗ[F] F)
    (hφd : Reads (ud :: params.derefs.genN.generators) params.derefs.gen1.h φd)
    (hφo : Reads (uo :: params.ops.genN.generators) params.ops.gen1.h φo)
    (hφm : Reads (um :: params.mem.genN.generators) params.mem.gen1.h φm)
    (hgo : 2 ^ (4 + k - (4 + k) / 2) ≤ params.ops.genN.generators.length)
    (hgm : 2 ^ (1 + lm - (1 + lm) / 2) ≤ params.mem.genN.generators.length)
    (hchar : ∀ j : Nat, 0 < j → j ≤ 2 ^ lm + 3 * 2 ^ k → (j : F) ≠ 0)
    (proof : EvalsProof F G) (k1 k2 k3 : Nat) (hk1 : proof.hash.derefs.L.length = k1) (hk2 : proof.hash.ops.L.length = k2)
    (hk3 : proof.hash.mem.L.length = k3) (h3 : proof.hash.row.1.length = 3 ∧ proof.hash.row.2.1.length = 3 ∧
      proof.hash.col.1.length = 3 ∧ proof.hash.col.2.1.length = 3)
    (hp : ∀ l ∈ proof.layer.ops.layers ++ proof.layer.memory.layers, ∀ p ∈ l.polys, p.length ≤ d + 1)
    (rx ry : List F) (hmax : max rx.length ry.length = lm) (evals : F × F × F) (tr tr' : Transcript F G)
    (h : sparseEvalVerify ch params proof commit rx ry evals tr = .ok ((), tr')) :
    ∃ a b, Seg ch tr tr' (evalNum k lm k1 k2 k3) a b ∧
      (HitT ch (badEval d φd φo φm k1 k2 k3 enc k lm (equalizeLength rx ry).1 (equalizeLength rx ry).2) tr tr' ∨
        [evals.1, evals.2.1, evals.2.2] = ((enc.row.addrIndex.map (readVals (evalEq (equalizeLength rx ry).1))).zip
          ((enc.col.addrIndex.map (readVals (evalEq (equalizeLength rx ry).2))).zip enc.vals)).map sumDotp) := by
  obtain ⟨hrows, hcols⟩ := equalize_length rx ry lm hmax
  unfold sparseEvalVerify at h
  obtain ⟨_, _, h1, h⟩ := bind_inv h
  obtain rfl := say_inv h1
  obtain ⟨rows, hrd⟩ : ∃ rows, rows = (equalizeLength rx ry).1 := ⟨_, rfl⟩
  obtain ⟨cols, hcd⟩ : ∃ cols, cols = (equalizeLength rx ry).2 := ⟨_, rfl⟩
  simp only [← hrd, ← hcd] at h hrows hcols ⊢
  obtain ⟨_, _, h1, h⟩ := bind_inv h
  obtain ⟨-, rfl⟩ := ensure_inv h1
  obtain ⟨_, _, h1, h⟩ := bind_inv h
  obtain rfl := say_inv h1
  obtain ⟨g1, t1, h1, h⟩ := bind_inv h
  obtain ⟨hg1, ht1⟩ := challenge_inv h1
  obtain ⟨g2, t2, h1, h⟩ := bind_inv h
  obtain ⟨hg2, ht2⟩ := challenge_inv h1
  obtain ⟨⟨⟨ops, dotp, opsR⟩, mem, md, memR⟩, t3, hprod, h⟩ := bind_inv h
  obtain ⟨_, _, h1, h⟩ := bind_inv h
  obtain ⟨hls, rfl⟩ := ensure_inv h1
  simp only [decide_eq_true_eq] at hls
  obtain ⟨w, hw⟩ : ∃ w, w = wit φd (3 + k) proof.derefsCommit := ⟨_, rfl⟩
  have hwl8 : w.length = 8 * 2 ^ k := by rw [hw, wit_length, pow_add]; norm_num
  have hbl : ∀ i < 8, (block k w i).length = 2 ^ k := fun i hi => block_length k 8 w hwl8 i hi
  have hrowl : ∀ l ∈ rowOf k w, l.length = 2 ^ k := by
    intro l hl
    simp only [rowOf, List.mem_cons, List.not_mem_nil, or_false] at hl
    rcases hl with rfl | rfl | rfl <;> exact hbl _ (by norm_num)
  have hcoll : ∀ l ∈ colOf k w, l.length = 2 ^ k := by
    intro l hl
    simp only [colOf, List.mem_cons, List.not_mem_nil, or_false] at hl
    rcases hl with rfl | rfl | rfl <;> exact hbl _ (by norm_num)
  have hML : (evalEq rows).length = 2 ^ lm := by rw [evalEq_length, hrows]
  have hMC : (evalEq cols).length = 2 ^ lm := by rw [evalEq_length, hcols]
  rw [he.n, he.m] at hprod
  have opsLen : ∀ (ts : AddrTimestamps F) (es : List (List F)), (ts.addrs.length = 3 ∧ ∀ l ∈ ts.addrs, l.length = 2 ^ k) →
      (ts.readTs.length = 3 ∧ ∀ l ∈ ts.readTs, l.length = 2 ^ k) → es.length = 3 → (∀ l ∈ es, l.length = 2 ^ k) →
      ((triples ts.addrs ts.readTs es).map (readList g1 g2)).length = 3 ∧
      ((triples ts.addrs ts.readTs es).map (writeList g1 g2)).length = 3 ∧
      (∀ x ∈ opsOf g1 g2 ts es, x.length = 2 ^ k) := by
    intro ts es hA hT he3 hes
    refine ⟨by simp [triples, hA.1, hT.1, he3], by simp [triples, hA.1, hT.1, he3], ?_⟩
    intro x hx
    unfold opsOf at hx
    rcases List.mem_append.1 hx with hx | hx
    · obtain ⟨y, hy, rfl⟩ := List.mem_map.1 hx
      obtain ⟨z1, z2, z3⟩ := triples_mem hy
      exact hashList_length _ _ _ _ _ _ (hA.2 _ z1) (hes _ z3) (hT.2 _ z2)
    · obtain ⟨y, hy, rfl⟩ := List.mem_map.1 hx
      obtain ⟨z1, z2, z3⟩ := triples_mem hy
      exact hashList_length _ _ _ _ _ _ (hA.2 _ z1) (hes _ z3) (by rw [List.length_map]; exact hT.2 _ z2)
  obtain ⟨or1, or2, or3⟩ := opsLen enc.row (rowOf k w) he.rowA he.rowT rfl hrowl
  obtain ⟨oc1, oc2, oc3⟩ := opsLen enc.col (colOf k w) he.colA he.colT rfl hcoll
  obtain ⟨a, b, a', b', t4, s1, s2, e1, e2, l1, l2, q⟩ := product_sound' hd ch k lm hk hlm _ _ _ _ (initList g1 g2 (evalEq rows))
    (auditList g1 g2 (evalEq rows) enc.row.auditTs) (initList g1 g2 (evalEq cols))
    (auditList g1 g2 (evalEq cols) enc.col.auditTs) ⟨or1, or2, oc1, oc2⟩ (by
      intro x hx
      rcases List.mem_append.1 hx with hx | hx
      · exact or3 x hx
      · exact oc3 x hx) (by
      intro x hx
      simp only [List.mem_cons, List.not_mem_nil, or_false] at hx
      rcases hx with rfl | rfl | rfl | rfl
      · exact hashList_length _ _ _ _ _ _ (by simp [hML]) hML (by simp [hML])
      · exact hashList_length _ _ _ _ _ _ (by simp [hML]) hML he.rowE
      · exact hashList_length _ _ _ _ _ _ (by simp [hMC]) hMC (by simp [hMC])
      · exact hashList_length _ _ _ _ _ _ (by simp [hMC]) hMC he.colE) (dotXs enc k w) (by
      simp [dotXs, rowOf, colOf, he.vals.1]) (by
      intro x hx
      obtain ⟨y1, y2⟩ := List.of_mem_zip hx
      obtain ⟨y3, y4⟩ := List.of_mem_zip y2
      exact ⟨hrowl _ y1, hcoll _ y3, he.vals.2 _ y4⟩) proof.layer hp _ _ _ _ _ _ _ _ _ _ _ hprod
  obtain ⟨a2, b2, s3, q3⟩ := hash_sound ch params enc commit k lm he ud uo um hud huo hum φd φo φm hφd hφo hφm hgo hgm proof.hash k1 k2 k3
    hk1 hk2 hk3 h3 rows cols opsR memR l1 l2 hrows hcols g1 g2 ops mem dotp hls.2.1 hls.1 proof.derefsCommit w hw _ _ h
  -- the two hash parameters
  have sg := (Seg.one ch (tr ++ [.frs "protocol-name: sparse polynomial evaluation proof" []] ++
    [.pts "comm_poly_row_col_ops_val" proof.derefsCommit]) "challenge_gamma_hash").trans (Seg.one ch _ "challenge_gamma_hash")
  rw [hg1, ht1, hg2, ht2, List.append_assoc] at sg
  have hpl : ∀ x ∈ ([.frs "protocol-name: sparse polynomial evaluation proof" []] ++
    [.pts "comm_poly_row_col_ops_val" proof.derefsCommit] : Transcript F G), Plain x := by simp [Plain]
  have sg' := sg.shift hpl
  have p3 := s3.pre
  have p2 := s2.pre.trans p3
  have p1 := s1.pre.trans p2
  refine ⟨_, _, sg'.trans (s1.trans (s2.trans s3)), ?_⟩
  unfold badEval
  have hpts : ((ptsVals (([.frs "protocol-name: sparse polynomial evaluation proof" []] ++
      [.pts "comm_poly_row_col_ops_val" proof.derefsCommit] : Transcript F G) ++ ([.chal "challenge_gamma_hash"] ++
        [.chal "challenge_gamma_hash"]))).getD 0 []) = proof.derefsCommit := rfl
  by_cases hb1 : g1 ∈ badGamma k lm enc rows cols w []
  · left
    refine HitT.first ?_ sg' p1
    refine ⟨[.frs "protocol-name: sparse polynomial evaluation proof" []] ++
      [.pts "comm_poly_row_col_ops_val" proof.derefsCommit], [], "challenge_gamma_hash", ?_, ?_, ?_⟩
    · rw [← ht2, ← ht1]
      simp [List.append_assoc]
    · rw [drawn_plain ch tr _ hpl, List.append_nil]
    · have hpt0 : ((ptsVals (([.frs "protocol-name: sparse polynomial evaluation proof" []] ++
          [.pts "comm_poly_row_col_ops_val" proof.derefsCommit] : Transcript F G))).getD 0 []) = proof.derefsCommit := rfl
      beta_reduce
      rw [hpt0, ← hw, ← List.append_assoc, hg1]
      exact hb1
  by_cases hb2 : g2 ∈ badGamma k lm enc rows cols w [g1]
  · left
    refine HitT.first ?_ sg' p1
    refine ⟨[.frs "protocol-name: sparse polynomial evaluation proof" []] ++
      [.pts "comm_poly_row_col_ops_val" proof.derefsCommit] ++ [.chal "challenge_gamma_hash"], [g1], "challenge_gamma_hash",
      ?_, ?_, ?_⟩
    · rw [← ht2, ← ht1]
      simp [List.append_assoc]
    · rw [← List.append_assoc, drawn_chal, drawn_plain ch tr _ hpl, ← List.append_assoc, hg1]
    · have hpt0 : ((ptsVals (([.frs "protocol-name: sparse polynomial evaluation proof" []] ++
          [.pts "comm_poly_row_col_ops_val" proof.derefsCommit] ++ [.chal "challenge_gamma_hash"] : Transcript F G))).getD 0 []) =
          proof.derefsCommit := rfl
      beta_reduce
      rw [hpt0, ← hw, ← List.append_assoc, ← List.append_assoc, ht1, hg2]
      exact hb2
  rcases q with hit | hit | ⟨o1, o2, q⟩
  · left
    refine HitT.second sg' (HitT.first ?_ s1 p2)
    rw [hpts, ← hw]
    exact hit
  · left
    refine HitT.second sg' (HitT.second s1 (HitT.first ?_ s2 p3))
    exact hit
  rcases q3 o1 o2 with hit | ⟨v1, v2, v3⟩
  · left
    refine HitT.second sg' (HitT.second s1 (HitT.second s2 ?_))
    rw [hpts, ← hw, ← e1, ← e2]
    exact hit
  right
  obtain ⟨c1, c2, c3⟩ := q v1 v2 v3
  unfold badGamma at hb1 hb2
  rw [Finset.mem_union, not_or] at hb1 hb2
  have m1 := memory_sound k lm enc.row he.rowA he.rowT he.rowE (fun l hl => (he.rowI.2 l hl).2) (head_inv _ _ _ _ he.rowH).2.1 rows
    hrows (rowOf k w) ⟨rfl, hrowl⟩ hchar g1 g2 hb1.1 hb2.1 c1
  have m2 := memory_sound k lm enc.col he.colA he.colT he.colE (fun l hl => (he.colI.2 l hl).2) (head_inv _ _ _ _ he.colH).2.1 cols
    hcols (colOf k w) ⟨rfl, hcoll⟩ hchar g1 g2 hb1.2 hb2.2 c2
  rw [c3, ← m1, ← m2]
  rfl

end Zkp.Sc
