/- All layers of Hyrax's prover with challenges fixed beforehand. -/
import Verif.Proof.HyraxHidingSame
import Verif.Proof.HyraxLayers

set_option linter.unusedSectionVars false
set_option linter.unusedSimpArgs false

namespace Zkp.Hx

open Zkp.Ml Zkp.Spartan Zkp.Gkr Zkp.Cp Zkp.Sc Polynomial

variable {F : Type} [Field F] {G : Type} [AddCommGroup G] [Module F G] [DecidableEq F] [DecidableEq G]

theorem layersProve_congr (ch : Oracle F G) (params : Params G) (c : Circuit) (n : Nat) (evals : List (List (List F)))
    (rands rands' : Nat → ZkRand F) : ∀ k d (st : PSt F G), (∀ i, d ≤ i → i < d + k → rands i = rands' i) →
      layersProve ch params c n evals rands k d st = layersProve ch params c n evals rands' k d st := by
  intro k
  induction k with
  | zero => intros; rfl
  | succ k ih =>
    intro d st h
    unfold layersProve
    rw [h d (by omega) (by omega)]
    have e : layersProve ch params c n evals rands k (d + 1) = layersProve ch params c n evals rands' k (d + 1) :=
      funext fun st => ih (d + 1) st fun i h1 h2 => h i (by omega) (by omega)
    rw [e]

/-- Circuits and values as the layers need them. -/
structure Setup (c : Circuit) (L : Nat) (s : Nat → Nat) (evals : List (List (List F))) (logN : Nat) : Prop where
  len : c.layers.length = L + 1
  dep : c.depth = L + 1
  hN : 1 ≤ logN
  hon : Honest c.layers s evals logN

theorem layers_last {ch : Oracle F G} (params : Params G) {c : Circuit} {L : Nat} {s : Nat → Nat} {evals : List (List (List F))}
    {logN : Nat} (S : Setup c L s evals logN) (n d : Nat) (hd : d + 1 = L) (l : Layer) (hl : c.layers[0 + 1]? = some l) (st : PSt F G)
    (rands : Nat → ZkRand F) (N N1 : Nat) (proof : ZkProof F G) (qa ql qr : List F) (x y : F)
    (Y : Yields (zkProve ch params st.claim st.comm st.rc0 st.u0 st.u1 st.qa st.ql st.qr l.gates (layerTab s evals 0) n (2 ^ s 0)
      (rands d)) N (proof, (qa, ql, qr), x, y) N1) :
    Yields (layersProve ch params c n evals rands 1 d st) N
      ([proof], ⟨st.claim, st.comm, st.rc0, x, y, (rands d).x, (rands d).y, st.u0, st.u1, qa, ql, qr⟩) N1 := by
  have hlen := S.len
  have hdep := S.dep
  obtain ⟨prev, hprev⟩ : ∃ l, c.layers[0]? = some l := ⟨_, List.getElem?_eq_getElem (by omega)⟩
  have hc := S.hon.count 0 prev hprev
  rw [layersProve]
  refine (Yields.orPanic (a := prev) (by rw [← hprev]; congr 1; omega)).bind ?_
  rw [hc, padTo_two_pow, show c.depth - d - 2 = 0 by omega, show c.depth - d - 1 = 0 + 1 by omega]
  refine (Yields.orPanic (S.hon.tables (i := 0) (by omega) n)).bind ((Yields.orPanic hl).bind (Y.bind ?_))
  simp only
  rw [if_neg (by omega)]
  exact (show Yields (layersProve ch params c n evals rands 0 (d + 1) _) N1 ([], _) N1 from Yields.pure).bind Yields.pure

theorem layers_step {ch : Oracle F G} (ho : Oblivious ch) (params : Params G) {c : Circuit} {L : Nat} {s : Nat → Nat}
    {evals : List (List (List F))} {logN : Nat} (S : Setup c L s evals logN) (n k d : Nat) (hd : d + (k + 1 + 1) = L) (l : Layer)
    (hl : c.layers[k + 1 + 1]? = some l) (st st' : PSt F G) (rands : Nat → ZkRand F) (N N1 N2 : Nat) (proof : ZkProof F G)
    (qa ql qr : List F) (x y : F) (ps : List (ZkProof F G))
    (Y : Yields (zkProve ch params st.claim st.comm st.rc0 st.u0 st.u1 st.qa st.ql st.qr l.gates (layerTab s evals (k + 1)) n
      (2 ^ s (k + 1)) (rands d)) N (proof, (qa, ql, qr), x, y) N1)
    (Z : Yields (layersProve ch params c n evals rands (k + 1) (d + 1) ⟨x * chalAt ch (N1 + 1) + y * chalAt ch (N1 + 2),
      chalAt ch (N1 + 1) • proof.x + chalAt ch (N1 + 2) • proof.y,
      (rands d).x * chalAt ch (N1 + 1) + (rands d).y * chalAt ch (N1 + 2), x, y, (rands d).x, (rands d).y,
      chalAt ch (N1 + 1), chalAt ch (N1 + 2), qa, ql, qr⟩) (N1 + 3) (ps, st') N2) :
    Yields (layersProve ch params c n evals rands (k + 1 + 1) d st) N (proof :: ps, st') N2 := by
  have hlen := S.len
  have hdep := S.dep
  obtain ⟨prev, hprev⟩ : ∃ l, c.layers[k + 1]? = some l := ⟨_, List.getElem?_eq_getElem (by omega)⟩
  have hc := S.hon.count (k + 1) prev hprev
  rw [layersProve]
  refine (Yields.orPanic (a := prev) (by rw [← hprev]; congr 1; omega)).bind ?_
  rw [hc, padTo_two_pow, show c.depth - d - 2 = k + 1 by omega, show c.depth - d - 1 = k + 1 + 1 by omega]
  refine (Yields.orPanic (S.hon.tables (i := k + 1) (by omega) n)).bind ((Yields.orPanic hl).bind (Y.bind ?_))
  simp only
  rw [if_pos (by omega)]
  exact (Yields.challenge ho).bind ((Yields.challenge ho).bind (Yields.say.bind (Z.bind Yields.pure)))

/-- The run of one layer. -/
theorem Setup.layer (h2 : (2 : F) ≠ 0) (h3 : (3 : F) ≠ 0) {ch : Oracle F G} (ho : Oblivious ch) (params : Params G) {c : Circuit}
    {L : Nat} {s : Nat → Nat} {evals : List (List (List F))} {logN : Nat} (S : Setup c L s evals logN) {i : Nat} (hi : i < L)
    (hexp : s i = 0 ∨ s (i + 1) ≤ s i) {l : Layer} (hl : c.layers[i + 1]? = some l) (claim u0 u1 : F) (qa ql qr : List F)
    (hqa : qa.length = logN) (hql : ql.length = s (i + 1)) (hqr : qr.length = s (i + 1))
    (hc : claim = layerVal s evals (i + 1) qa ql * u0 + layerVal s evals (i + 1) qa qr * u1) (n : Nat) :
    ∃ m pie vals x y, ZkRun ch params claim u0 u1 qa ql qr l.gates (layerTab s evals i) logN (s i) n m pie vals x y := by
  have := zk_yields h2 h3 ho params claim u0 u1 qa ql qr l.gates (layerTab s evals i) (s i) n (by rw [hqa]; exact S.hN)
    (S.hon.layerOk hl hqa hql hqr) (by rw [hql]; exact hexp) (by rw [hc, S.hon.claim hl hqa hql hqr])
  rwa [hqa] at this

theorem layers_same (h2 : (2 : F) ≠ 0) (h3 : (3 : F) ≠ 0) {ch : Oracle F G} (ho : Oblivious ch) (params : Params G)
    (hs1 : Spans F params.gen1.h) (hs3 : Spans F params.gen3.h) (hs4 : Spans F params.gen4.h) {c : Circuit} {L : Nat} {s : Nat → Nat}
    {evals evals' : List (List (List F))} {logN : Nat} (S : Setup c L s evals logN) (S' : Setup c L s evals' logN) (g : Nat)
    (hflat : ∀ i ≤ L, s i = g) (D : Nat → ZkDraw F) (hD : ∀ i < L, (D i).Ok logN g) :
    ∀ k d (claim rc0 x0 y0 rx0 ry0 claim' rc0' x0' y0' rx0' ry0' u0 u1 : F) (comm : G) (qa ql qr : List F) (N : Nat),
      d + (k + 1) = L → qa.length = logN → ql.length = g → qr.length = g →
      claim = layerVal s evals (k + 1) qa ql * u0 + layerVal s evals (k + 1) qa qr * u1 →
      claim' = layerVal s evals' (k + 1) qa ql * u0 + layerVal s evals' (k + 1) qa qr * u1 →
      comm = commitVec params.gen1.generators [claim] params.gen1.h rc0 →
      comm = commitVec params.gen1.generators [claim'] params.gen1.h rc0' →
      ∃ (D' : Nat → ZkDraw F) (ps : List (ZkProof F G)) (fin fin' : PSt F G) (N' : Nat), (∀ i, d ≤ i → i < L → (D' i).Ok logN g) ∧
        Yields (layersProve ch params c (2 ^ logN) evals (fun i => (D i).rand) (k + 1) d
          ⟨claim, comm, rc0, x0, y0, rx0, ry0, u0, u1, qa, ql, qr⟩) N (ps, fin) N' ∧
        Yields (layersProve ch params c (2 ^ logN) evals' (fun i => (D' i).rand) (k + 1) d
          ⟨claim', comm, rc0', x0', y0', rx0', ry0', u0, u1, qa, ql, qr⟩) N (ps, fin') N' ∧
        fin'.qa = fin.qa ∧ fin'.ql = fin.ql ∧ fin'.qr = fin.qr ∧ fin.qa.length = logN ∧ fin.ql.length = g ∧ fin.qr.length = g ∧
        fin.x = layerVal s evals 0 fin.qa fin.ql ∧ fin.y = layerVal s evals 0 fin.qa fin.qr ∧
        fin'.x = layerVal s evals' 0 fin.qa fin.ql ∧ fin'.y = layerVal s evals' 0 fin.qa fin.qr ∧
        commitVec params.gen1.generators [fin.x] params.gen1.h fin.rx = commitVec params.gen1.generators [fin'.x] params.gen1.h fin'.rx ∧
        commitVec params.gen1.generators [fin.y] params.gen1.h fin.ry = commitVec params.gen1.generators [fin'.y] params.gen1.h fin'.ry := by
  intro k
  induction k with
  | zero =>
    intro d claim rc0 x0 y0 rx0 ry0 claim' rc0' x0' y0' rx0' ry0' u0 u1 comm qa ql qr N hd hqa hql hqr hc hc' hm hm'
    obtain ⟨l, hl⟩ : ∃ l, c.layers[0 + 1]? = some l := ⟨_, List.getElem?_eq_getElem (by have := S.len; omega)⟩
    have f0 := hflat 0 (by omega)
    have f1 := hflat (0 + 1) (by omega)
    obtain ⟨m, pie, vals, x, y, R⟩ := S.layer h2 h3 ho params (i := 0) (by omega) (Or.inr (by omega)) hl claim u0 u1 qa ql qr hqa
      (by omega) (by omega) hc N
    obtain ⟨m', pie', vals', x', y', R'⟩ := S'.layer h2 h3 ho params (i := 0) (by omega) (Or.inr (by omega)) hl claim' u0 u1 qa ql qr
      hqa (by omega) (by omega) hc' N
    have hg : s 0 = ql.length := by omega
    rw [hg] at R R'
    obtain ⟨d', proof, a1, a2, a3, a4, a5, Y, Y'⟩ := zk_same ho params hs1 hs3 hs4 claim claim' u0 u1 qa ql qr l.gates _ _ logN N m m'
      pie vals pie' vals' x y x' y' R R' comm rc0 rc0' hm hm' (D d) (by rw [hql]; exact hD d (by omega))
    rw [← hg] at Y Y'
    have Z := layers_last params S (2 ^ logN) d (by omega) l hl ⟨claim, comm, rc0, x0, y0, rx0, ry0, u0, u1, qa, ql, qr⟩
      (fun i => (D i).rand) N _ _ _ _ _ _ _ Y
    have Z' := layers_last params S' (2 ^ logN) d (by omega) l hl ⟨claim', comm, rc0', x0', y0', rx0', ry0', u0, u1, qa, ql, qr⟩
      (fun _ => d'.rand) N _ _ _ _ _ _ _ Y'
    refine ⟨fun _ => d', [proof], _, _, _, fun i _ _ => by rw [hql] at a1; exact a1, Z, Z', rfl, rfl, rfl, zkChals_length _ _ _,
      (zkChals_length _ _ _).trans f0, (zkChals_length _ _ _).trans f0, ?_, ?_, ?_, ?_, a4, a5⟩
    · rw [R.valX, hg]; rfl
    · rw [R.valY, hg]; rfl
    · rw [R'.valX, hg]; rfl
    · rw [R'.valY, hg]; rfl
  | succ k ih =>
    intro d claim rc0 x0 y0 rx0 ry0 claim' rc0' x0' y0' rx0' ry0' u0 u1 comm qa ql qr N hd hqa hql hqr hc hc' hm hm'
    obtain ⟨l, hl⟩ : ∃ l, c.layers[k + 1 + 1]? = some l := ⟨_, List.getElem?_eq_getElem (by have := S.len; omega)⟩
    have f0 := hflat (k + 1) (by omega)
    have f1 := hflat (k + 1 + 1) (by omega)
    obtain ⟨m, pie, vals, x, y, R⟩ := S.layer h2 h3 ho params (i := k + 1) (by omega) (Or.inr (by omega)) hl claim u0 u1 qa ql qr hqa
      (by omega) (by omega) hc N
    obtain ⟨m', pie', vals', x', y', R'⟩ := S'.layer h2 h3 ho params (i := k + 1) (by omega) (Or.inr (by omega)) hl claim' u0 u1 qa ql qr
      hqa (by omega) (by omega) hc' N
    have hg : s (k + 1) = ql.length := by omega
    rw [hg] at R R'
    obtain ⟨d', proof, a1, a2, a3, a4, a5, Y, Y'⟩ := zk_same ho params hs1 hs3 hs4 claim claim' u0 u1 qa ql qr l.gates _ _ logN N m m'
      pie vals pie' vals' x y x' y' R R' comm rc0 rc0' hm hm' (D d) (by rw [hql]; exact hD d (by omega))
    rw [← hg] at Y Y'
    obtain ⟨N1, hN1⟩ : ∃ N1, N1 = N + 6 * (logN + 2 * s (k + 1)) + 10 := ⟨_, rfl⟩
    rw [← hN1] at Y Y'
    have hx := R.valX
    have hy := R.valY
    have hx' := R'.valX
    have hy' := R'.valY
    rw [← hg] at hx hy hx' hy'
    obtain ⟨D', ps, fin, fin', N', b1, Z, Z', b2⟩ := ih (d + 1) (x * chalAt ch (N1 + 1) + y * chalAt ch (N1 + 2))
      ((D d).x * chalAt ch (N1 + 1) + (D d).y * chalAt ch (N1 + 2)) x y (D d).x (D d).y
      (x' * chalAt ch (N1 + 1) + y' * chalAt ch (N1 + 2)) (d'.x * chalAt ch (N1 + 1) + d'.y * chalAt ch (N1 + 2)) x' y' d'.x d'.y
      (chalAt ch (N1 + 1)) (chalAt ch (N1 + 2)) (chalAt ch (N1 + 1) • proof.x + chalAt ch (N1 + 2) • proof.y)
      _ _ _ (N1 + 3) (by omega) (zkChals_length ch N logN) ((zkChals_length ch (N + 4 * logN) (s (k + 1))).trans f0)
      ((zkChals_length ch (N + 4 * logN + 4 * s (k + 1)) (s (k + 1))).trans f0) (by rw [hx, hy]; rfl) (by rw [hx', hy']; rfl)
      (by rw [a2, a3, commitVec_one_lin, mul_comm x, mul_comm y, mul_comm (D d).x, mul_comm (D d).y])
      (by rw [a2, a3, a4, a5, commitVec_one_lin, mul_comm x', mul_comm y', mul_comm d'.x, mul_comm d'.y])
    obtain ⟨D'', hD''⟩ : ∃ D'' : Nat → ZkDraw F, D'' = fun i => if i = d then d' else D' i := ⟨_, rfl⟩
    have q0 : D'' d = d' := by rw [hD'']; simp
    have q1 : ∀ i, d + 1 ≤ i → D'' i = D' i := fun i hi => by rw [hD'']; simp only; rw [if_neg (by omega)]
    rw [layersProve_congr ch params c _ evals' _ (fun i => (D'' i).rand) _ _ _ (fun i h1 _ => by simp only [q1 i h1])] at Z'
    rw [← q0] at Y'
    have A := layers_step ho params S (2 ^ logN) k d hd l hl ⟨claim, comm, rc0, x0, y0, rx0, ry0, u0, u1, qa, ql, qr⟩ fin
      (fun i => (D i).rand) N N1 N' proof _ _ _ x y ps Y Z
    have A' := layers_step ho params S' (2 ^ logN) k d hd l hl ⟨claim', comm, rc0', x0', y0', rx0', ry0', u0, u1, qa, ql, qr⟩ fin'
      (fun i => (D'' i).rand) N N1 N' proof _ _ _ x' y' ps Y' (by simp only [q0]; exact Z')
    refine ⟨D'', proof :: ps, fin, fin', N', ?_, A, A', b2⟩
    intro i h1 h2
    by_cases h : i = d
    · rw [h, q0, ← hql]; exact a1
    · rw [q1 i (by omega)]; exact b1 i (by omega) h2

theorem layers_inj (h2 : (2 : F) ≠ 0) (h3 : (3 : F) ≠ 0) {ch : Oracle F G} (ho : Oblivious ch) (params : Params G)
    (hs1 : Spans F params.gen1.h) (hs3 : Spans F params.gen3.h) (hs4 : Spans F params.gen4.h) {c : Circuit} {L : Nat} {s : Nat → Nat}
    {evals : List (List (List F))} {logN : Nat} (S : Setup c L s evals logN) (g : Nat)
    (hflat : ∀ i ≤ L, s i = g) (D D' : Nat → ZkDraw F) (hD : ∀ i < L, (D i).Ok logN g) (hD' : ∀ i < L, (D' i).Ok logN g) :
    ∀ k d (claim rc0 x0 y0 rx0 ry0 u0 u1 : F) (comm : G) (qa ql qr : List F) (N n1 n2 : Nat) (ps : List (ZkProof F G)) (v w : PSt F G),
      d + (k + 1) = L → qa.length = logN → ql.length = g → qr.length = g →
      claim = layerVal s evals (k + 1) qa ql * u0 + layerVal s evals (k + 1) qa qr * u1 →
      comm = commitVec params.gen1.generators [claim] params.gen1.h rc0 →
      Yields (layersProve ch params c (2 ^ logN) evals (fun i => (D i).rand) (k + 1) d
          ⟨claim, comm, rc0, x0, y0, rx0, ry0, u0, u1, qa, ql, qr⟩) N (ps, v) n1 →
      Yields (layersProve ch params c (2 ^ logN) evals (fun i => (D' i).rand) (k + 1) d
          ⟨claim, comm, rc0, x0, y0, rx0, ry0, u0, u1, qa, ql, qr⟩) N (ps, w) n2 →
      ∀ i, d ≤ i → i < L → D i = D' i := by
  intro k
  induction k with
  | zero =>
    intro d claim rc0 x0 y0 rx0 ry0 u0 u1 comm qa ql qr N n1 n2 ps v w hd hqa hql hqr hc hm H H'
    obtain ⟨l, hl⟩ : ∃ l, c.layers[0 + 1]? = some l := ⟨_, List.getElem?_eq_getElem (by have := S.len; omega)⟩
    have f0 := hflat 0 (by omega)
    have f1 := hflat (0 + 1) (by omega)
    obtain ⟨m, pie, vals, x, y, R⟩ := S.layer h2 h3 ho params (i := 0) (by omega) (Or.inr (by omega)) hl claim u0 u1 qa ql qr hqa
      (by omega) (by omega) hc N
    have hg : s 0 = ql.length := by omega
    rw [hg] at R
    have o := hD d (by omega)
    have o' := hD' d (by omega)
    rw [← hql] at o o'
    obtain ⟨-, p, -, -, -, -, -, Y, -⟩ := zk_same ho params hs1 hs3 hs4 claim claim u0 u1 qa ql qr l.gates _ _ logN N m m
      pie vals pie vals x y x y R R comm rc0 rc0 hm hm (D d) o
    obtain ⟨-, p', -, -, -, -, -, Y', -⟩ := zk_same ho params hs1 hs3 hs4 claim claim u0 u1 qa ql qr l.gates _ _ logN N m m
      pie vals pie vals x y x y R R comm rc0 rc0 hm hm (D' d) o'
    have fin : p = p' → D d = D' d := by
      rintro rfl
      exact zk_inj ho params hs1 hs3 hs4 claim u0 u1 qa ql qr l.gates _ logN N m pie vals x y R comm rc0 _ _ o o' _ _ _ _ _ Y Y'
    rw [← hg] at Y Y'
    have Z := layers_last params S (2 ^ logN) d (by omega) l hl ⟨claim, comm, rc0, x0, y0, rx0, ry0, u0, u1, qa, ql, qr⟩
      (fun i => (D i).rand) N _ _ _ _ _ _ _ Y
    have Z' := layers_last params S (2 ^ logN) d (by omega) l hl ⟨claim, comm, rc0, x0, y0, rx0, ry0, u0, u1, qa, ql, qr⟩
      (fun i => (D' i).rand) N _ _ _ _ _ _ _ Y'
    have e := ((Prod.mk.inj (Z.unique H).1).1).trans ((Prod.mk.inj (Z'.unique H').1).1).symm
    intro i h1 h2
    obtain rfl : i = d := by omega
    exact fin (by simpa using e)
  | succ k ih =>
    intro d claim rc0 x0 y0 rx0 ry0 u0 u1 comm qa ql qr N n1 n2 ps v w hd hqa hql hqr hc hm H H'
    obtain ⟨l, hl⟩ : ∃ l, c.layers[k + 1 + 1]? = some l := ⟨_, List.getElem?_eq_getElem (by have := S.len; omega)⟩
    have f0 := hflat (k + 1) (by omega)
    have f1 := hflat (k + 1 + 1) (by omega)
    obtain ⟨m, pie, vals, x, y, R⟩ := S.layer h2 h3 ho params (i := k + 1) (by omega) (Or.inr (by omega)) hl claim u0 u1 qa ql qr hqa
      (by omega) (by omega) hc N
    have hg : s (k + 1) = ql.length := by omega
    rw [hg] at R
    have o := hD d (by omega)
    have o' := hD' d (by omega)
    rw [← hql] at o o'
    obtain ⟨-, p, -, p2, p3, -, -, Y, -⟩ := zk_same ho params hs1 hs3 hs4 claim claim u0 u1 qa ql qr l.gates _ _ logN N m m
      pie vals pie vals x y x y R R comm rc0 rc0 hm hm (D d) o
    obtain ⟨-, p', -, p2', p3', -, -, Y', -⟩ := zk_same ho params hs1 hs3 hs4 claim claim u0 u1 qa ql qr l.gates _ _ logN N m m
      pie vals pie vals x y x y R R comm rc0 rc0 hm hm (D' d) o'
    have fin : p = p' → D d = D' d := by
      rintro rfl
      exact zk_inj ho params hs1 hs3 hs4 claim u0 u1 qa ql qr l.gates _ logN N m pie vals x y R comm rc0 _ _ o o' _ _ _ _ _ Y Y'
    rw [← hg] at Y Y'
    obtain ⟨N1, hN1⟩ : ∃ N1, N1 = N + 6 * (logN + 2 * s (k + 1)) + 10 := ⟨_, rfl⟩
    rw [← hN1] at Y Y'
    have hx := R.valX
    have hy := R.valY
    rw [← hg] at hx hy
    have run : ∀ (D : Nat → ZkDraw F) (_ : ∀ i < L, (D i).Ok logN g) (p : ZkProof F G)
        (_ : p.x = commitVec params.gen1.generators [x] params.gen1.h (D d).x)
        (_ : p.y = commitVec params.gen1.generators [y] params.gen1.h (D d).y),
        (chalAt ch (N1 + 1) • p.x + chalAt ch (N1 + 2) • p.y = commitVec params.gen1.generators
          [x * chalAt ch (N1 + 1) + y * chalAt ch (N1 + 2)] params.gen1.h
          ((D d).x * chalAt ch (N1 + 1) + (D d).y * chalAt ch (N1 + 2))) ∧ ∃ qs fin N',
        Yields (layersProve ch params c (2 ^ logN) evals (fun i => (D i).rand) (k + 1) (d + 1)
          ⟨x * chalAt ch (N1 + 1) + y * chalAt ch (N1 + 2), chalAt ch (N1 + 1) • p.x + chalAt ch (N1 + 2) • p.y,
            (D d).x * chalAt ch (N1 + 1) + (D d).y * chalAt ch (N1 + 2), x, y, (D d).x, (D d).y, chalAt ch (N1 + 1), chalAt ch (N1 + 2),
            zkChals ch N logN, zkChals ch (N + 4 * logN) (s (k + 1)), zkChals ch (N + 4 * logN + 4 * s (k + 1)) (s (k + 1))⟩)
          (N1 + 3) (qs, fin) N' := by
      intro D hD p p2 p3
      have e : chalAt ch (N1 + 1) • p.x + chalAt ch (N1 + 2) • p.y = commitVec params.gen1.generators
          [x * chalAt ch (N1 + 1) + y * chalAt ch (N1 + 2)] params.gen1.h
          ((D d).x * chalAt ch (N1 + 1) + (D d).y * chalAt ch (N1 + 2)) := by
        rw [p2, p3, commitVec_one_lin, mul_comm x, mul_comm y, mul_comm (D d).x, mul_comm (D d).y]
      refine ⟨e, ?_⟩
      obtain ⟨-, qs, fin, -, N', -, Z, -⟩ := layers_same h2 h3 ho params hs1 hs3 hs4 S S g hflat D hD k (d + 1)
        (x * chalAt ch (N1 + 1) + y * chalAt ch (N1 + 2))
        ((D d).x * chalAt ch (N1 + 1) + (D d).y * chalAt ch (N1 + 2)) x y (D d).x (D d).y
        (x * chalAt ch (N1 + 1) + y * chalAt ch (N1 + 2)) ((D d).x * chalAt ch (N1 + 1) + (D d).y * chalAt ch (N1 + 2)) x y (D d).x (D d).y
        (chalAt ch (N1 + 1)) (chalAt ch (N1 + 2)) (chalAt ch (N1 + 1) • p.x + chalAt ch (N1 + 2) • p.y)
        _ _ _ (N1 + 3) (by omega) (zkChals_length ch N logN) ((zkChals_length ch (N + 4 * logN) (s (k + 1))).trans f0)
        ((zkChals_length ch (N + 4 * logN + 4 * s (k + 1)) (s (k + 1))).trans f0) (by rw [hx, hy]; rfl) (by rw [hx, hy]; rfl) e e
      exact ⟨qs, fin, N', Z⟩
    obtain ⟨he, qs, fin1, M1, Z⟩ := run D hD p p2 p3
    obtain ⟨-, qs', fin2, M2, Z'⟩ := run D' hD' p' p2' p3'
    have A := layers_step ho params S (2 ^ logN) k d hd l hl ⟨claim, comm, rc0, x0, y0, rx0, ry0, u0, u1, qa, ql, qr⟩ fin1
      (fun i => (D i).rand) N N1 M1 p _ _ _ x y qs Y Z
    have A' := layers_step ho params S (2 ^ logN) k d hd l hl ⟨claim, comm, rc0, x0, y0, rx0, ry0, u0, u1, qa, ql, qr⟩ fin2
      (fun i => (D' i).rand) N N1 M2 p' _ _ _ x y qs' Y' Z'
    have e := ((Prod.mk.inj (A.unique H).1).1).trans ((Prod.mk.inj (A'.unique H').1).1).symm
    obtain ⟨e1, rfl⟩ := List.cons.inj e
    have e0 := fin e1
    subst e1
    rw [← e0] at Z'
    have rest := ih (d + 1) _ _ _ _ _ _ _ _ _ _ _ _ (N1 + 3) _ _ qs fin1 fin2 (by omega) (zkChals_length ch N logN)
      ((zkChals_length ch (N + 4 * logN) (s (k + 1))).trans f0)
      ((zkChals_length ch (N + 4 * logN + 4 * s (k + 1)) (s (k + 1))).trans f0) (by rw [hx, hy]; rfl) he Z Z'
    intro i h1 h2
    by_cases h : i = d
    · rw [h]; exact e0
    · exact rest i (by omega) h2

end Zkp.Hx
