/- All layers of Hyrax, the output claim and the input claims. -/
import Verif.Proof.HyraxZk
import Verif.Proof.SpartanProver
import Verif.Spec.HyraxChecked

set_option linter.unusedSectionVars false

namespace Zkp.Hx

open Zkp.Ml Zkp.Spartan Zkp.Gkr Zkp.Cp Zkp.Sc Polynomial

variable {F : Type} [Field F] {G : Type} [AddCommGroup G] [Module F G] [DecidableEq F] [DecidableEq G]

/-- The values of the nodes of layer `i`, one list per node. -/
def layerTab (s : Nat → Nat) (evals : List (List (List F))) (i : Nat) : List (List F) :=
  (List.range (2 ^ s i)).map fun j => evals.map fun e => (e.getD i []).getD j 0

/-- The extension of layer `i`. -/
def layerVal (s : Nat → Nat) (evals : List (List (List F))) (i : Nat) (qa q : List F) : F :=
  mle (nodeVals (layerTab s evals i) qa) q

theorem getD_map_zero {α : Type} (l : List (List α)) (f : List α → F) (h : f [] = 0) (t : Nat) :
    (l.map f).getD t 0 = f (l.getD t []) := by
  rw [List.getD_eq_getElem?_getD, List.getElem?_map, List.getD_eq_getElem?_getD]
  cases l[t]? <;> simp [h]

theorem layerTab_getD (s : Nat → Nat) (evals : List (List (List F))) (i j : Nat) (h : j < 2 ^ s i) :
    (layerTab s evals i).getD j [] = evals.map fun e => (e.getD i []).getD j 0 := by
  rw [layerTab, List.getD_eq_getElem _ _ (by simpa using h)]; simp

theorem layerTab_cell (s : Nat → Nat) (evals : List (List (List F))) (i j t : Nat) (h : j < 2 ^ s i) :
    ((layerTab s evals i).getD j []).getD t 0 = ((evals.getD t []).getD i []).getD j 0 := by
  rw [layerTab_getD _ _ _ _ h, getD_map_zero evals (fun e => (e.getD i []).getD j 0) (by simp)]

theorem layerVal_eq (s : Nat → Nat) (evals : List (List (List F))) (i : Nat) (qa q : List F) (hq : q.length = s i) :
    layerVal s evals i qa q = mle (evals.map fun e => mle (e.getD i []) q) qa := by
  have h0 : mle (([] : List (List F)).getD i []) q = 0 := by simp [mle]
  rw [layerVal]
  unfold mle at h0 ⊢
  have e1 : ∀ t, (evals.map fun e => ∑ j ∈ Finset.range (2 ^ q.length), (e.getD i []).getD j 0 * eqWeight q j).getD t 0 =
      ∑ j ∈ Finset.range (2 ^ q.length), ((evals.getD t []).getD i []).getD j 0 * eqWeight q j := fun t =>
    getD_map_zero evals _ h0 t
  simp only [e1, Finset.sum_mul]
  rw [Finset.sum_comm]
  refine Finset.sum_congr rfl fun j hj => ?_
  rw [nodeVals, getD_map_mle, mle, Finset.sum_mul]
  refine Finset.sum_congr rfl fun t _ => ?_
  rw [layerTab_cell _ _ _ _ _ (by rw [← hq]; exact Finset.mem_range.1 hj)]; ring

/-- Layers that are computed gate by gate, for all instances. -/
structure Honest (layers : List Layer) (s : Nat → Nat) (evals : List (List (List F))) (logN : Nat) : Prop where
  num : evals.length = 2 ^ logN
  count : ∀ i l, layers[i]? = some l → l.gatesCount = 2 ^ s i
  vals : ∀ e ∈ evals, ∀ i < layers.length, i < e.length ∧ (e.getD i []).length = 2 ^ s i
  wire : ∀ i l, layers[i + 1]? = some l → Numbered l.gates ∧ l.gates.length = 2 ^ s (i + 1) ∧
    ∀ g ∈ l.gates, (g.op = 0 ∨ g.op = 1) ∧ g.left < 2 ^ s i ∧ g.right < 2 ^ s i ∧ ∀ e ∈ evals,
      (e.getD (i + 1) []).getD g.g 0 = opFirst g.op ((e.getD i []).getD g.left 0) ((e.getD i []).getD g.right 0)

theorem numbered_sum {gates : List Gate} (h : Numbered gates) (f : Nat → F) :
    (gates.map fun g => f g.g).sum = ∑ j ∈ Finset.range gates.length, f j := by
  rw [← Bp.range_map_sum]
  congr 1
  apply List.ext_getElem (by simp)
  intro i h1 h2
  simp [h i (by simpa using h1)]

theorem Honest.layerOk {layers : List Layer} {s : Nat → Nat} {evals : List (List (List F))} {logN : Nat}
    (h : Honest layers s evals logN) {i : Nat} {l : Layer} (hl : layers[i + 1]? = some l) {qa ql qr : List F}
    (hqa : qa.length = logN) (h1 : ql.length = s (i + 1)) (h2 : qr.length = s (i + 1)) :
    LayerOk l.gates (layerTab s evals i) qa ql qr (s i) := by
  obtain ⟨a, b, c⟩ := h.wire i l hl
  refine ⟨a, by rw [b, h1], h1.trans h2.symm, fun g hg => (c g hg).1, fun g hg => ⟨(c g hg).2.1, (c g hg).2.2.1⟩,
    by simp [layerTab], ?_⟩
  intro t ht
  obtain ⟨j, _, rfl⟩ := List.mem_map.1 ht
  rw [List.length_map, h.num, hqa]

theorem Honest.claim {layers : List Layer} {s : Nat → Nat} {evals : List (List (List F))} {logN : Nat}
    (h : Honest layers s evals logN) {i : Nat} {l : Layer} (hl : layers[i + 1]? = some l) {qa ql qr : List F}
    (hqa : qa.length = logN) (h1 : ql.length = s (i + 1)) (h2 : qr.length = s (i + 1)) (u0 u1 : F) :
    gateClaim l.gates (layerTab s evals i) qa ql qr u0 u1 =
      layerVal s evals (i + 1) qa ql * u0 + layerVal s evals (i + 1) qa qr * u1 := by
  obtain ⟨a, b, c⟩ := h.wire i l hl
  have e : gateClaim l.gates (layerTab s evals i) qa ql qr u0 u1 = (l.gates.map fun g =>
      (fun j => (eqWeight ql j * u0 + eqWeight qr j * u1) * mle ((layerTab s evals (i + 1)).getD j []) qa) g.g).sum := by
    refine map_sum_congr fun g hg => ?_
    obtain ⟨_, c2, c3, c4⟩ := c g hg
    have hg' : g.g < 2 ^ s (i + 1) := by rw [← b]; exact (a.get hg).1
    simp only
    congr 1
    unfold mle
    refine Finset.sum_congr rfl fun t ht => ?_
    rw [layerTab_cell _ _ _ _ _ hg', layerTab_cell _ _ _ _ _ c2, layerTab_cell _ _ _ _ _ c3, c4 _ ?_]
    · ring
    · exact getD_mem _ _ _ (by rw [h.num, ← hqa]; exact Finset.mem_range.1 ht)
  rw [e, numbered_sum a fun j => (eqWeight ql j * u0 + eqWeight qr j * u1) * mle ((layerTab s evals (i + 1)).getD j []) qa, b]
  simp only [layerVal, nodeVals]
  have m : ∀ q : List F, q.length = s (i + 1) → mle ((layerTab s evals (i + 1)).map fun t => mle t qa) q =
      ∑ j ∈ Finset.range (2 ^ s (i + 1)), mle ((layerTab s evals (i + 1)).getD j []) qa * eqWeight q j := by
    intro q hq
    conv_lhs => unfold mle
    rw [hq]
    refine Finset.sum_congr rfl fun j _ => ?_
    rw [← getD_map_mle]
    rfl
  rw [m ql h1, m qr h2, Finset.sum_mul, Finset.sum_mul, ← Finset.sum_add_distrib]
  exact Finset.sum_congr rfl fun j _ => by ring

theorem padTo_two_pow (k : Nat) : padTo (2 ^ k) = 2 ^ k := by unfold padTo; rw [Nat.clog_pow 2 k (by decide)]

theorem Honest.tables {layers : List Layer} {s : Nat → Nat} {evals : List (List (List F))} {logN : Nat}
    (h : Honest layers s evals logN) {i : Nat} (hi : i < layers.length) (n : Nat) :
    nodeTables evals i (2 ^ s i) (2 ^ s i) n = some (layerTab s evals i) := by
  unfold nodeTables
  rw [if_pos ?_]
  · simp [layerTab]
  · rw [List.all_eq_true]
    intro e he
    obtain ⟨h1, h2⟩ := h.vals e he i hi
    simp only [Bool.and_eq_true, decide_eq_true_eq]
    exact ⟨h1, h2.ge⟩

/-! ### The added check only adds -/

theorem bind_run {α β : Type} {m : Vf F G α} {f : α → Vf F G β} {tr tr1 : Transcript F G} {a : α} {out : Except Stop (β × Transcript F G)}
    (h : m tr = .ok (a, tr1)) (h' : f a tr1 = out) : (m >>= f) tr = out := by
  change (m tr >>= fun x => f x.1 x.2) = out
  rw [h]
  exact h'

theorem layersChecked_imp (ch : Oracle F G) (params : Params G) (proofs : List (ZkProof F G)) (c : Circuit) (n k : Nat) :
    ∀ (d : Nat) (st st' : St F G) (tr tr' : Transcript F G), layersChecked ch params proofs c n k d st tr = .ok (st', tr') →
      layersVerify ch params proofs c n k d st tr = .ok (st', tr') := by
  induction k with
  | zero => intro d st st' tr tr' h; exact h
  | succ k ih =>
    intro d st st' tr tr' h
    unfold layersChecked at h
    obtain ⟨next, t1, h1, h⟩ := bind_inv h
    obtain ⟨p, t2, h2, h⟩ := bind_inv h
    obtain ⟨layer, t3, h3, h⟩ := bind_inv h
    obtain ⟨_, t4, h4, h'⟩ := bind_inv h
    clear h
    obtain ⟨_, rfl⟩ := ensure_inv h4
    obtain ⟨⟨x, y, qa, ql, qr⟩, t5, h5, h⟩ := bind_inv h'
    unfold layersVerify
    refine bind_run h1 (bind_run h2 (bind_run h3 (bind_run h5 ?_)))
    simp only at h ⊢
    split at h
    · rename_i hd
      rw [if_pos hd]
      obtain ⟨u0, t6, h6, h⟩ := bind_inv h
      obtain ⟨u1, t7, h7, h⟩ := bind_inv h
      obtain ⟨_, t8, h8, h⟩ := bind_inv h
      exact bind_run h6 (bind_run h7 (bind_run h8 (ih _ _ _ _ _ h)))
    · rename_i hd
      rw [if_neg hd]
      exact ih _ _ _ _ _ h

/-- What the repaired verifier accepts, the verifier of the code accepts. -/
theorem verifyChecked_imp (ch : Oracle F G) (params : Params G) (proof : HyraxProof F G) (outputs inputs : List (List F))
    (c : Circuit) (circuitHash paramHash : F) (tr tr' : Transcript F G)
    (h : verifyChecked ch params proof outputs inputs c circuitHash paramHash tr = .ok ((), tr')) :
    verify ch params proof outputs inputs c circuitHash paramHash tr = .ok ((), tr') := by
  unfold verifyChecked at h
  obtain ⟨_, t1, h1, h⟩ := bind_inv h
  obtain ⟨_, t2, h2, h⟩ := bind_inv h
  obtain ⟨_, t3, h3, h⟩ := bind_inv h
  obtain ⟨_, t4, h4, h⟩ := bind_inv h
  obtain ⟨_, t5, h5, h⟩ := bind_inv h
  obtain ⟨_, t6, h6, h⟩ := bind_inv h
  obtain ⟨⟨res, qa, ql⟩, t7, h7, h⟩ := bind_inv h
  obtain ⟨_, t8, h8, h⟩ := bind_inv h
  obtain ⟨_, t9, h9, h⟩ := bind_inv h
  obtain ⟨st, t10, h10, h⟩ := bind_inv h
  unfold verify
  exact bind_run h1 (bind_run h2 (bind_run h3 (bind_run h4 (bind_run h5 (bind_run h6 (bind_run h7 (bind_run h8 (bind_run h9
    (bind_run (layersChecked_imp _ _ _ _ _ _ _ _ _ _ _ h10) h)))))))))

/-- The proof of a layer carries the commitment to the claim that the prover was given. -/
theorem zkProve_a0 {ch : Oracle F G} {params : Params G} {claim : F} {a0 : G} {rc0 u0 u1 : F} {qa ql qr : List F}
    {gates : List Gate} {evals : List (List F)} {n ng : Nat} {rand : ZkRand F} {tr tr' : Transcript F G} {proof : ZkProof F G}
    {o : (List F × List F × List F) × F × F}
    (h : zkProve ch params claim a0 rc0 u0 u1 qa ql qr gates evals n ng rand tr = .ok ((proof, o), tr')) : proof.a0 = a0 := by
  unfold zkProve at h
  obtain ⟨_, _, -, h⟩ := bind_inv h
  obtain ⟨_, _, -, h⟩ := bind_inv h
  obtain ⟨_, _, -, h⟩ := bind_inv h
  obtain ⟨_, _, -, h⟩ := bind_inv h
  obtain ⟨_, _, -, h⟩ := bind_inv h
  obtain ⟨_, _, -, h⟩ := bind_inv h
  obtain ⟨_, _, -, h⟩ := bind_inv h
  obtain ⟨_, _, -, h⟩ := bind_inv h
  obtain ⟨_, _, -, h⟩ := bind_inv h
  obtain ⟨_, _, -, h⟩ := bind_inv h
  obtain ⟨_, _, -, h⟩ := bind_inv h
  obtain ⟨_, _, -, h⟩ := bind_inv h
  obtain ⟨_, _, -, h⟩ := bind_inv h
  obtain ⟨_, _, -, h⟩ := bind_inv h
  obtain ⟨p, _, hs, h⟩ := bind_inv h
  have e := (pure_inv h).1
  obtain rfl : p = proof := congrArg Prod.fst e
  unfold sumcheckProve at hs
  obtain ⟨_, _, -, hs⟩ := bind_inv hs
  obtain ⟨_, _, -, hs⟩ := bind_inv hs
  obtain ⟨_, _, -, hs⟩ := bind_inv hs
  obtain ⟨_, _, -, hs⟩ := bind_inv hs
  obtain ⟨_, _, -, hs⟩ := bind_inv hs
  obtain ⟨_, _, -, hs⟩ := bind_inv hs
  rw [← (pure_inv hs).1]

theorem layers_follow (h2 : (2 : F) ≠ 0) (h3 : (3 : F) ≠ 0) (ch : Oracle F G) (params : Params G) (c : Circuit) (L : Nat)
    (hlen : c.layers.length = L + 1) (hdep : c.depth = L + 1) (s : Nat → Nat) (evals : List (List (List F))) (n : Nat)
    (hN : 1 ≤ Nat.clog 2 n) (hon : Honest c.layers s evals (Nat.clog 2 n))
    (hexp : ∀ i < L, s i = 0 ∨ s (i + 1) ≤ s i) (rands : Nat → ZkRand F) :
    ∀ k d (st : PSt F G) (x y : G) (tr : Transcript F G), d + (k + 1) = L → st.qa.length = Nat.clog 2 n →
      st.ql.length = s (k + 1) → st.qr.length = s (k + 1) →
      st.claim = layerVal s evals (k + 1) st.qa st.ql * st.u0 + layerVal s evals (k + 1) st.qa st.qr * st.u1 →
      st.comm = commitVec params.gen1.generators [st.claim] params.gen1.h st.rc0 →
      ∃ ps st' sv' tr', layersProve ch params c n evals rands (k + 1) d st tr = .ok ((ps, st'), tr') ∧
        (∀ proofs : List (ZkProof F G), (∀ i < k + 1, proofs[d + i]? = ps[i]?) →
          layersChecked ch params proofs c n (k + 1) d ⟨st.comm, x, y, st.u0, st.u1, st.qa, st.ql, st.qr⟩ tr =
            .ok (sv', tr')) ∧ ps.length = k + 1 ∧ sv'.qa = st'.qa ∧ sv'.ql = st'.ql ∧ sv'.qr = st'.qr ∧
        st'.qa.length = Nat.clog 2 n ∧ st'.ql.length = s 0 ∧ st'.qr.length = s 0 ∧
        st'.x = layerVal s evals 0 st'.qa st'.ql ∧ st'.y = layerVal s evals 0 st'.qa st'.qr ∧
        sv'.x = commitVec params.gen1.generators [st'.x] params.gen1.h st'.rx ∧
        sv'.y = commitVec params.gen1.generators [st'.y] params.gen1.h st'.ry := by
  intro k
  induction k with
  | zero =>
    intro d st x y tr hd hqa hql hqr hcl hcm
    obtain ⟨l, hl⟩ : ∃ l, c.layers[0 + 1]? = some l := ⟨_, List.getElem?_eq_getElem (by omega)⟩
    obtain ⟨prev, hprev⟩ : ∃ l, c.layers[0]? = some l := ⟨_, List.getElem?_eq_getElem (by omega)⟩
    have hc := hon.count 0 prev hprev
    obtain ⟨proof, rs, r0, r1, x', y', tr', z1, z2, z3, z4, z5, z6, z7, z8, z9⟩ := zk_follow h2 h3 ch params st.claim st.comm
      st.rc0 st.u0 st.u1 st.qa st.ql st.qr l.gates (layerTab s evals 0) n (s 0) (rands d) hN hqa
      (hon.layerOk hl hqa hql hqr) (by rw [hql]; exact hexp 0 (by omega)) (by rw [hcl, hon.claim hl hqa hql hqr]) hcm tr
    refine ⟨[proof], ⟨st.claim, st.comm, st.rc0, x', y', (rands d).x, (rands d).y, st.u0, st.u1, rs, r0, r1⟩,
      ⟨st.comm, proof.x, proof.y, st.u0, st.u1, rs, r0, r1⟩, tr', ?_, ?_, rfl, rfl, rfl, rfl, by rw [z3, hqa], z4, z5, z6, z7,
      z8, z9⟩
    · apply Cp.runs_eq
      rw [layersProve]
      refine (Runs.orPanic (a := prev) (by rw [← hprev]; congr 1; omega)).bind fun _ _ e => ?_
      obtain ⟨rfl, rfl⟩ := e
      rw [hc, padTo_two_pow, show c.depth - d - 2 = 0 by omega, show c.depth - d - 1 = 0 + 1 by omega]
      refine (Runs.orPanic (hon.tables (i := 0) (by omega) n)).bind fun _ _ e => ?_
      obtain ⟨rfl, rfl⟩ := e
      refine (Runs.orPanic hl).bind fun _ _ e => ?_
      obtain ⟨rfl, rfl⟩ := e
      refine (Cp.runs_of z1).bind fun _ _ e => ?_
      obtain ⟨rfl, rfl⟩ := e
      simp only
      rw [if_neg (by omega)]
      exact Runs.pure ⟨rfl, rfl⟩
    · intro proofs hp
      apply Cp.runs_eq
      rw [layersChecked]
      refine (Runs.orPanic (a := prev) (by rw [← hprev]; congr 1; omega)).bind fun _ _ e => ?_
      obtain ⟨rfl, rfl⟩ := e
      rw [hc, padTo_two_pow, show c.depth - d - 1 = 0 + 1 by omega]
      refine (Runs.orPanic (a := proof) (by have := hp 0 (by omega); simpa using this)).bind fun _ _ e => ?_
      obtain ⟨rfl, rfl⟩ := e
      refine (Runs.orPanic hl).bind fun _ _ e => ?_
      obtain ⟨rfl, rfl⟩ := e
      refine (Runs.ensure (decide_eq_true (zkProve_a0 z1))).bind fun _ _ e => ?_
      subst e
      refine (Cp.runs_of z2).bind fun _ _ e => ?_
      obtain ⟨rfl, rfl⟩ := e
      simp only
      rw [if_neg (by omega)]
      exact Runs.pure ⟨rfl, rfl⟩
  | succ k ih =>
    intro d st x y tr hd hqa hql hqr hcl hcm
    obtain ⟨l, hl⟩ : ∃ l, c.layers[k + 1 + 1]? = some l := ⟨_, List.getElem?_eq_getElem (by omega)⟩
    obtain ⟨prev, hprev⟩ : ∃ l, c.layers[k + 1]? = some l := ⟨_, List.getElem?_eq_getElem (by omega)⟩
    have hc := hon.count (k + 1) prev hprev
    obtain ⟨proof, rs, r0, r1, x', y', tr1, z1, z2, z3, z4, z5, z6, z7, z8, z9⟩ := zk_follow h2 h3 ch params st.claim st.comm
      st.rc0 st.u0 st.u1 st.qa st.ql st.qr l.gates (layerTab s evals (k + 1)) n (s (k + 1)) (rands d) hN hqa
      (hon.layerOk hl hqa hql hqr) (by rw [hql]; exact hexp (k + 1) (by omega)) (by rw [hcl, hon.claim hl hqa hql hqr]) hcm tr
    obtain ⟨u0, hu0⟩ : ∃ u, u = ch (tr1 ++ [.chal "u0"]) := ⟨_, rfl⟩
    obtain ⟨u1, hu1⟩ : ∃ u, u = ch (tr1 ++ [.chal "u0"] ++ [.chal "u1"]) := ⟨_, rfl⟩
    obtain ⟨ps, st', sv', tr', i1, i2, i3, i4, i5, i6, i7, i8, i9, i10, i11, i12, i13⟩ := ih (d + 1)
      ⟨x' * u0 + y' * u1, u0 • proof.x + u1 • proof.y, (rands d).x * u0 + (rands d).y * u1, x', y', (rands d).x, (rands d).y,
        u0, u1, rs, r0, r1⟩ proof.x proof.y
      (tr1 ++ [.chal "u0"] ++ [.chal "u1"] ++ [.pt "comm_a_i" (u0 • proof.x + u1 • proof.y)]) (by omega)
      (by rw [z3, hqa]) z4 z5 (by simp only [z6, z7]; rfl) (by
        simp only [z8, z9]
        rw [commitVec_one_lin, mul_comm u0, mul_comm u1, mul_comm u0, mul_comm u1])
    refine ⟨proof :: ps, st', sv', tr', ?_, ?_, by simpa using i3, i4, i5, i6, i7, i8, i9, i10, i11, i12, i13⟩
    · apply Cp.runs_eq
      rw [layersProve]
      refine (Runs.orPanic (a := prev) (by rw [← hprev]; congr 1; omega)).bind fun _ _ e => ?_
      obtain ⟨rfl, rfl⟩ := e
      rw [hc, padTo_two_pow, show c.depth - d - 2 = k + 1 by omega, show c.depth - d - 1 = k + 1 + 1 by omega]
      refine (Runs.orPanic (hon.tables (i := k + 1) (by omega) n)).bind fun _ _ e => ?_
      obtain ⟨rfl, rfl⟩ := e
      refine (Runs.orPanic hl).bind fun _ _ e => ?_
      obtain ⟨rfl, rfl⟩ := e
      refine (Cp.runs_of z1).bind fun _ _ e => ?_
      obtain ⟨rfl, rfl⟩ := e
      simp only
      rw [if_pos (by omega)]
      refine Runs.challenge.bind fun _ _ e => ?_
      obtain ⟨e, rfl⟩ := e
      rw [← hu0] at e
      subst e
      refine Runs.challenge.bind fun _ _ e => ?_
      obtain ⟨e, rfl⟩ := e
      rw [← hu1] at e
      subst e
      refine Runs.say.bind fun _ _ e => ?_
      subst e
      refine (Cp.runs_of i1).bind fun _ _ e => ?_
      obtain ⟨rfl, rfl⟩ := e
      exact Runs.pure ⟨rfl, rfl⟩
    · intro proofs hp
      apply Cp.runs_eq
      rw [layersChecked]
      refine (Runs.orPanic (a := prev) (by rw [← hprev]; congr 1; omega)).bind fun _ _ e => ?_
      obtain ⟨rfl, rfl⟩ := e
      rw [hc, padTo_two_pow, show c.depth - d - 1 = k + 1 + 1 by omega]
      refine (Runs.orPanic (a := proof) (by have := hp 0 (by omega); simpa using this)).bind fun _ _ e => ?_
      obtain ⟨rfl, rfl⟩ := e
      refine (Runs.orPanic hl).bind fun _ _ e => ?_
      obtain ⟨rfl, rfl⟩ := e
      refine (Runs.ensure (decide_eq_true (zkProve_a0 z1))).bind fun _ _ e => ?_
      subst e
      refine (Cp.runs_of z2).bind fun _ _ e => ?_
      obtain ⟨rfl, rfl⟩ := e
      simp only
      rw [if_pos (by omega)]
      refine Runs.challenge.bind fun _ _ e => ?_
      obtain ⟨e, rfl⟩ := e
      rw [← hu0] at e
      subst e
      refine Runs.challenge.bind fun _ _ e => ?_
      obtain ⟨e, rfl⟩ := e
      rw [← hu1] at e
      subst e
      refine Runs.say.bind fun _ _ e => ?_
      subst e
      exact Cp.runs_of (i2 proofs fun i hi => by
        have := hp (i + 1) (by omega)
        rw [List.getElem?_cons_succ] at this
        rw [← this]; congr 1; omega)

/-! ### The outputs -/

theorem zip_mle (v q : List F) (h : v.length = 2 ^ q.length) : (List.zipWith (· * ·) v (evalEq q)).sum = mle v q := by
  have := evalValue_eq v q h.le
  unfold evalValue at this
  rw [if_pos (by rw [evalEq_length]; exact h.le)] at this
  exact Option.some.inj this

theorem outputs_run (ch : Oracle F G) (outputs : List (List F)) (a b : Nat) (hn : outputs.length = 2 ^ a)
    (ho : ∀ o ∈ outputs, o.length = 2 ^ b) (tr : Transcript F G) :
    ∃ qa q tr', evalOutputs ch outputs tr = .ok ((mle (outputs.map fun o => mle o q) qa, qa, q), tr') ∧
      qa.length = a ∧ q.length = b := by
  obtain ⟨o0, h0⟩ : ∃ o, outputs[0]? = some o := ⟨_, List.getElem?_eq_getElem (by rw [hn]; positivity)⟩
  have hl0 := ho o0 (List.mem_of_getElem? h0)
  obtain ⟨q, tr1, e1, hq⟩ := Succeeds.challenges ch "challenge_nextround" b tr
  obtain ⟨qa, tr2, e2, hqa⟩ := Succeeds.challenges ch "challenge_nextround" a tr1
  refine ⟨qa, q, tr2, ?_, hqa, hq⟩
  apply Cp.runs_eq
  unfold evalOutputs
  refine (Runs.orPanic h0).bind fun _ _ e => ?_
  obtain ⟨rfl, rfl⟩ := e
  simp only [hl0, hn, padTo_two_pow, Nat.clog_pow 2 _ (show 1 < 2 by decide)]
  refine (Cp.runs_of e1).bind fun _ _ e => ?_
  obtain ⟨rfl, rfl⟩ := e
  refine (Runs.ensure (by
    rw [List.all_eq_true]
    intro o h
    simp [ho o h])).bind fun _ _ e => ?_
  subst e
  refine (Cp.runs_of e2).bind fun _ _ e => ?_
  obtain ⟨rfl, rfl⟩ := e
  refine Runs.pure ⟨?_, rfl⟩
  have : (outputs.map fun o => (List.zipWith (· * ·) o (evalEq q)).sum) = outputs.map fun o => mle o q :=
    List.map_congr_left fun o h => zip_mle o q (by rw [ho o h, hq])
  rw [this, zip_mle _ _ (by rw [List.length_map, hn, hqa])]

/-! ### The input layer -/

theorem evalProve_runs (ch : Oracle F G) (hch : ∀ t, ch (t ++ [.chal "x"]) ≠ 0) (params : PcParams G)
    (poly blindPoly ry : List F) (m : Nat) (hp : poly.length = 2 ^ m) (hb : blindPoly.length = 2 ^ (m / 2))
    (hr : ry.length = m) (hn : 2 ^ (m - m / 2) ≤ params.n) (hg : 2 ^ (m - m / 2) ≤ params.genN.generators.length)
    (h1 : params.gen1.generators ≠ []) (ryBlind eval d rBeta rDelta : F) (blinds : List (F × F))
    (hbl : m - m / 2 ≤ blinds.length) (tr : Transcript F G) :
    ∃ out tr', evalProve ch params poly blindPoly ry ryBlind eval d rBeta rDelta blinds tr = .ok (out, tr') := by
  suffices h : Runs (evalProve ch params poly blindPoly ry ryBlind eval d rBeta rDelta blinds) tr fun _ _ => True by
    obtain ⟨o, tr', h, -⟩ := h; exact ⟨o, tr', h⟩
  unfold evalProve
  have hsz : Nat.clog 2 poly.length = m := by rw [hp, Nat.clog_pow 2 m (by decide)]
  have hc : Runs (combineRows (G := G) poly blindPoly ry) tr (fun x _ => x.1.length = 2 ^ (m - m / 2) ∧
      x.2.2.length = 2 ^ (m - m / 2)) := by
    unfold combineRows
    simp only [hsz]
    refine (Runs.ensure (by simp [hr])).bind fun _ _ _ => ?_
    have hne : ¬ blindPoly.length = 0 := by rw [hb]; positivity
    refine (Runs.ensure (by simp only [hne, if_false]; simp [hb])).bind fun _ _ _ => ?_
    refine (Runs.ensure (by
      simp only [decide_eq_true_eq]; rw [hp, ← pow_add]; apply Nat.pow_le_pow_right (by decide); omega)).bind fun _ _ _ => ?_
    exact Runs.pure ⟨by simp, by simp [evalEq_length, hr]⟩
  refine hc.bind fun ⟨lz, lzBlind, re⟩ _ ⟨e1, e2⟩ => ?_
  simp only at e1 e2
  have ha : ∀ tr, Runs (logDotAsserts params lz re) tr fun _ _ => True := by
    intro tr
    unfold logDotAsserts
    exact (Runs.ensure (by simp [e1, e2])).bind fun _ _ _ => (Runs.ensure (by simpa [e2] using hn)).mono fun _ _ _ => trivial
  refine (ha _).bind fun _ t _ => ?_
  obtain ⟨p, cx, cy, t', hd⟩ := C57_log_dot_finishes ch hch "c" params h1 lz re _ e1 e2 hg eval lzBlind ryBlind d rBeta rDelta
    blinds hbl t
  refine (Cp.runs_of hd).bind fun _ _ e => ?_
  obtain ⟨rfl, rfl⟩ := e
  exact Runs.pure trivial

theorem input_follow (ch : Oracle F G) (hch : ∀ t, ch (t ++ [.chal "x"]) ≠ 0) (params : Params G)
    (hh : params.pc.genN.h = params.pc.gen1.h) (hgen : params.pc.gen1 = params.gen1) (witness blinds ins qa q : List F) (m : Nat)
    (hq : 1 ≤ q.length) (hm : qa.length + (q.length - 1) = m) (hw : witness.length = 2 ^ m)
    (hb : blinds.length = 2 ^ (m / 2)) (hi : ins.length ≤ 2 ^ m) (hn : 2 ^ (m - m / 2) ≤ params.pc.n)
    (hg : 2 ^ (m - m / 2) ≤ params.pc.genN.generators.length) (h1 : params.pc.gen1.generators ≠ []) (x rx : F)
    (rand : InputRand F) (hbl : m - m / 2 ≤ rand.bullet.length)
    (hx : x = (1 - q.headD 0) * mle witness (qa ++ q.tail) + q.headD 0 * mle ins (qa ++ q.tail))
    (comms : List G) (tr0 tr0' : Transcript F G)
    (hc : packCommit params.pc.genN.generators params.pc.genN.h witness blinds tr0 = .ok (comms, tr0'))
    (tr : Transcript F G) :
    ∃ prod y eq tr', inputProve ch params witness blinds qa q x rx rand tr = .ok ((prod, y, eq), tr') ∧
      inputVerify ch params comms prod y eq ins qa q (commitVec params.gen1.generators [x] params.gen1.h rx) tr =
        .ok ((), tr') := by
  have hpt : (qa ++ q.tail).length = m := by rw [List.length_append, List.length_tail]; exact hm
  have hbne : blinds ≠ [] := by
    intro e
    rw [e] at hb
    have := Nat.two_pow_pos (m / 2)
    simp at hb
    omega
  obtain ⟨⟨prod, y⟩, tr1, hp⟩ := evalProve_runs ch hch params.pc witness blinds (qa ++ q.tail) m hw hb hpt hn hg h1 rand.eval
    (mle witness (qa ++ q.tail)) rand.d rand.rBeta rand.rDelta rand.bullet hbl tr
  obtain ⟨hy, hv⟩ := C57_evaluation ch params.pc hh witness blinds _ hbne comms tr0 tr0' hc rand.eval rand.d rand.rBeta
    rand.rDelta rand.bullet prod y tr tr1 hp
  obtain ⟨eq, tr2, he, hev⟩ := C57_equality ch params.pc.gen1 x rx ((1 - q.headD 0) * rand.eval) rand.eq tr1
  refine ⟨prod, y, eq, tr2, ?_, ?_⟩
  · apply Cp.runs_eq
    unfold inputProve
    refine (Runs.ensure (by simpa using hq)).bind fun _ _ e => ?_
    subst e
    refine (Runs.orPanic (evalValue_eq witness _ (by rw [hpt, hw]))).bind fun _ _ e => ?_
    obtain ⟨rfl, rfl⟩ := e
    refine (Cp.runs_of hp).bind fun _ _ e => ?_
    obtain ⟨rfl, rfl⟩ := e
    refine (Cp.runs_of he).bind fun _ _ e => ?_
    obtain ⟨rfl, rfl⟩ := e
    exact Runs.pure ⟨rfl, rfl⟩
  · apply Cp.runs_eq
    unfold inputVerify
    refine (Runs.ensure (by simpa using hq)).bind fun _ _ e => ?_
    subst e
    refine (Cp.runs_of hv).bind fun _ _ e => ?_
    obtain ⟨rfl, rfl⟩ := e
    refine (Runs.ensure rfl).bind fun _ _ e => ?_
    subst e
    refine (Runs.orPanic (evalValue_eq ins _ (by rw [hpt]; exact hi))).bind fun _ _ e => ?_
    obtain ⟨rfl, rfl⟩ := e
    simp only
    have hz : (1 - q.headD 0) • y + q.headD 0 • commitVec params.pc.gen1.generators [mle ins (qa ++ q.tail)] params.pc.gen1.h
        (0 : F) = commitVec params.pc.gen1.generators [x] params.pc.gen1.h ((1 - q.headD 0) * rand.eval) := by
      rw [hy, commitVec_one_lin, hx, mul_zero, add_zero]
    rw [hz, ← hgen]
    refine (Cp.runs_of hev).bind fun _ _ e => ?_
    obtain ⟨rfl, rfl⟩ := e
    exact (Runs.ensure rfl).mono fun _ _ e => ⟨trivial, e.symm⟩

end Zkp.Hx
