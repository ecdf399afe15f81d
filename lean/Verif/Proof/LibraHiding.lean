/- Libra's hiding prover with challenges fixed beforehand: the same proof for another witness, by other random values. -/
import Verif.Spec.LibraDraw
import Verif.Proof.SpartanHiding
import Verif.Proof.LibraZk

namespace Zkp.Lz

open Zkp.Ml Zkp.Spartan Zkp.Sc Zkp.Gkr Zkp.Cp Zkp.Hx

set_option linter.unusedSectionVars false
set_option linter.unusedSimpArgs false

variable {F : Type} [Field F] {G : Type} [AddCommGroup G] [Module F G] [DecidableEq F] [DecidableEq G]

theorem map_range_getD {α : Type} (l : List α) (a : α) (n : Nat) (h : l.length = n) :
    (List.range n).map (fun i => l.getD i a) = l := by
  subst h
  refine List.ext_getElem (by simp) fun i h1 h2 => ?_
  simp only [List.getElem_map, List.getElem_range]
  exact List.getD_eq_getElem l a h2

/-- The tables of the second sum-check do not depend on the values of the layer. -/
theorem initPhaseTwo_indep (gu gv ru : List F) (gates : List Gate) (v v' : List F) (n : Nat) (alpha beta : F)
    (hl : v'.length = v.length) {m a : List F} {f : F} (h : initPhaseTwo gu gv ru gates v n alpha beta = some (m, a, f)) :
    ∃ f', initPhaseTwo gu gv ru gates v' n alpha beta = some (m, a, f') := by
  unfold initPhaseTwo at h ⊢
  rw [hl]
  simp only at h ⊢
  split at h
  · simp at h
  rename_i hne
  rw [if_neg hne]
  cases hg : evalsG gu gv alpha beta with
  | none => rw [hg] at h; simp at h
  | some g =>
    rw [hg] at h
    cases hm : evalFgu g (evalEq ru) gates n with
    | none => simp [hm] at h
    | some p =>
      simp only [hm, Option.bind_eq_bind, Option.bind_some, Option.some.injEq, Prod.mk.injEq] at h ⊢
      exact ⟨_, h.1, h.2.1, rfl⟩

/-- The tables of a layer. -/
theorem layer_tables (raw : List (Nat × Nat × Nat)) (v : List F) (n : Nat) (gu gv : List F) (alpha beta claim : F)
    (h : gu.length = gv.length) (hv : v.length = 2 ^ n) (hk : raw.length ≤ 2 ^ gu.length) (hl : ∀ g ∈ raw, Legal (2 ^ n) g)
    (hc : claim = alpha * mle (raw.map (gateValue v)) gu + beta * mle (raw.map (gateValue v)) gv) (ru : List F)
    (hr : ru.length = n) :
    ∃ m1 a1 a2 m2 ad : List F, initPhaseOne gu gv (gatesOf raw) v n alpha beta = some (m1, a1, a2) ∧
      TablesOk n [v, m1, a1, a2] ∧ claim = total libraOne [v, m1, a1, a2] ∧
      initPhaseTwo gu gv ru (gatesOf raw) v n alpha beta = some (m2, ad, mle v ru) ∧ TablesOk n [v, m2, ad] ∧
      mle v ru * mle m1 ru + mle v ru * mle a1 ru + mle a2 ru = total (libraTwo (mle v ru)) [v, m2, ad] := by
  have hg := gatesOf_ok raw (2 ^ gu.length) (2 ^ n) hk hl
  obtain ⟨mul, add1, add2, e1, l1, l2, l3, _⟩ := C60_phase_one gu gv (gatesOf raw) v n alpha beta h hv hg
  obtain ⟨_, _, _, e1', hsum⟩ := C60_claim gu gv raw v n alpha beta h hv hk hl
  rw [e1] at e1'
  obtain ⟨rfl, rfl, rfl⟩ : _ ∧ _ ∧ _ := by simpa using e1'
  obtain ⟨mul', add', e2, m1, m2, _⟩ := C60_phase_two gu gv ru (gatesOf raw) v n alpha beta h hv hr hg
  obtain ⟨_, _, _, _, _, f1, f2, f3⟩ := C60_reduction gu gv ru (gatesOf raw) v n alpha beta h hv hr hg
  rw [e1] at f1
  obtain ⟨rfl, rfl, rfl⟩ : _ ∧ _ ∧ _ := by simpa using f1
  rw [e2] at f2
  obtain ⟨rfl, rfl⟩ : _ ∧ _ := by simpa using f2
  have hok : TablesOk n [v, mul, add1, add2] := ⟨by simp, by simp [hv, l1, l2, l3]⟩
  have hok' : TablesOk n [v, mul', add'] := ⟨by simp, by simp [hv, m1, m2]⟩
  refine ⟨mul, add1, add2, mul', add', e1, hok, ?_, e2, hok', ?_⟩
  · rw [hc, ← hsum, total, tableLen_eq hok]; rfl
  · rw [f3, total, tableLen_eq hok']; rfl

/-- A layer, from its parts. -/
theorem layer_yields {ch : Oracle F G} (params : Params G) (gates : List Gate) (v : List F) (n : Nat) (hn : 1 ≤ n)
    (gu gv : List F) (alpha beta claim claimBlind : F) (d : LayerDraw F) (hd : d.Ok n) (ru rv : List F)
    (m1 a1 a2 m2 ad : List F) (N : Nat)
    (e1 : initPhaseOne gu gv gates v n alpha beta = some (m1, a1, a2)) (ok1 : TablesOk n [v, m1, a1, a2])
    (e2 : initPhaseTwo gu gv ru gates v n alpha beta = some (m2, ad, mle v ru)) (ok2 : TablesOk n [v, m2, ad])
    (P1 P2 : ScProof F G) (cl1 cl2 bU bV : F) (PR : ProdProof F G) (E : EqProof F G) (cx cy cz : G) (N1 N2 N3 N4 : Nat)
    (Y1 : Yields (hidingRounds ch params.gen1 params.gen3 3 (quadRound libraOne) d.one claim claimBlind [v, m1, a1, a2]) N
      (P1, ru, [v, m1, a1, a2].map (fun t => [mle t ru]), cl1, bU) N1)
    (Y2 : Yields (hidingRounds ch params.gen1 params.gen3 3 (quadRound (libraTwo (mle v ru))) d.two
      (mle v ru * mle m1 ru + mle v ru * mle a1 ru + mle a2 ru) bU [v, m2, ad]) (N1 + 1)
      (P2, rv, [v, m2, ad].map (fun t => [mle t rv]), cl2, bV) N2)
    (Y3 : Yields (productProve ch params.gen1 (mle v ru) d.x (mle v rv) d.y (mle v ru * mle v rv) d.z d.b0 d.b1 d.b2 d.b3 d.b4)
      (N2 + 1) (PR, cx, cy, cz) N3)
    (Y4 : Yields (eqProve ch params.gen1 (mle v ru * mle v rv * mle m2 rv + (mle v ru + mle v rv) * mle ad rv)
      (d.z * mle m2 rv + (d.x + d.y) * mle ad rv) (mle v ru * mle v rv * mle m2 rv + (mle v ru + mle v rv) * mle ad rv) bV d.eq)
      N3 E N4) :
    Yields (zkLayerProve ch params gates v n gu gv alpha beta claim claimBlind d.rand) N
      (⟨P1, P2, commitVec params.gen1.generators [mle v ru] params.gen1.h d.x,
        commitVec params.gen1.generators [mle v rv] params.gen1.h d.y, cz, PR, E⟩, ru, rv, mle v ru, mle v ru, mle v rv) N4 := by
  have Z1 : Yields (zkPhaseOne ch params v m1 a1 a2 n claim claimBlind d.rand.one) N
      (P1, [mle v ru, mle m1 ru, mle a1 ru, mle a2 ru], bU, ru) N1 := by
    unfold zkPhaseOne
    refine (Yields.ensure ?_).bind ?_
    · have := ok1.2; simp at this; simp [this]
    · rw [show (List.range n).map d.rand.one = d.one from map_range_getD d.one noRound n hd.1]
      exact Y1.bind ((Yields.orPanic (by rfl)).bind ((Yields.ensure (by simpa using hn)).bind Yields.pure))
  have Z2 : Yields (zkPhaseTwo ch params v m2 ad (mle v ru) n (mle v ru * mle m1 ru + mle v ru * mle a1 ru + mle a2 ru) bU
      d.rand.two) (N1 + 1) (P2, [mle v rv, mle m2 rv, mle ad rv], bV, rv) N2 := by
    unfold zkPhaseTwo
    refine (Yields.ensure ?_).bind ?_
    · have := ok2.2; simp at this; simp [this]
    · rw [show (List.range n).map d.rand.two = d.two from map_range_getD d.two noRound n hd.2.1]
      exact Y2.bind ((Yields.orPanic (by rfl)).bind ((Yields.ensure (by simpa using hn)).bind Yields.pure))
  unfold zkLayerProve
  refine (Yields.orPanic e1).bind (Z1.bind ?_)
  refine (Yields.orPanic (a := mle v ru) rfl).bind ((Yields.orPanic (a := mle m1 ru) rfl).bind
    ((Yields.orPanic (a := mle a1 ru) rfl).bind ((Yields.orPanic (a := mle a2 ru) rfl).bind (Yields.say.bind ?_))))
  refine (Yields.orPanic e2).bind (Z2.bind ?_)
  refine (Yields.orPanic (a := mle v rv) rfl).bind ((Yields.orPanic (a := mle m2 rv) rfl).bind
    ((Yields.orPanic (a := mle ad rv) rfl).bind (Yields.say.bind ?_)))
  exact Y3.bind (Y4.bind Yields.pure)

theorem layer_same (h2 : (2 : F) ≠ 0) {ch : Oracle F G} (ho : Oblivious ch) (params : Params G) (hs1 : Spans F params.gen1.h)
    (hs3 : Spans F params.gen3.h) (raw : List (Nat × Nat × Nat)) (v v' : List F) (n : Nat) (hn : 1 ≤ n) (gu gv : List F)
    (alpha beta claim blind claim' blind' : F) (h : gu.length = gv.length) (hv : v.length = 2 ^ n) (hv' : v'.length = 2 ^ n)
    (hk : raw.length ≤ 2 ^ gu.length) (hl : ∀ g ∈ raw, Legal (2 ^ n) g)
    (hc : claim = alpha * mle (raw.map (gateValue v)) gu + beta * mle (raw.map (gateValue v)) gv)
    (hc' : claim' = alpha * mle (raw.map (gateValue v')) gu + beta * mle (raw.map (gateValue v')) gv)
    (he : commitVec params.gen1.generators [claim] params.gen1.h blind =
      commitVec params.gen1.generators [claim'] params.gen1.h blind')
    (d : LayerDraw F) (hd : d.Ok n) (N : Nat) (ru rv : List F) (hru : ru = roundChals ch N n)
    (hrv : rv = roundChals ch (N + 11 * n + 1) n) :
    ∃ (d' : LayerDraw F) (p : ZkLayer F G), d'.Ok n ∧
      commitVec params.gen1.generators [mle v ru] params.gen1.h d.x =
        commitVec params.gen1.generators [mle v' ru] params.gen1.h d'.x ∧
      commitVec params.gen1.generators [mle v rv] params.gen1.h d.y =
        commitVec params.gen1.generators [mle v' rv] params.gen1.h d'.y ∧
      Yields (zkLayerProve ch params (gatesOf raw) v n gu gv alpha beta claim blind d.rand) N
        (p, ru, rv, mle v ru, mle v ru, mle v rv) (N + 22 * n + 13) ∧
      Yields (zkLayerProve ch params (gatesOf raw) v' n gu gv alpha beta claim' blind' d'.rand) N
        (p, ru, rv, mle v' ru, mle v' ru, mle v' rv) (N + 22 * n + 13) := by
  have hlu : ru.length = n := by rw [hru, roundChals_length]
  obtain ⟨m1, a1, a2, m2, ad, e1, ok1, t1, e2, ok2, t2⟩ := layer_tables raw v n gu gv alpha beta claim h hv hk hl hc ru hlu
  obtain ⟨m1', a1', a2', m2', ad', e1', ok1', t1', e2', ok2', t2'⟩ := layer_tables raw v' n gu gv alpha beta claim' h hv' hk hl
    hc' ru hlu
  obtain ⟨rfl, rfl⟩ : m2 = m2' ∧ ad = ad' := by
    obtain ⟨f, hf⟩ := initPhaseTwo_indep gu gv ru (gatesOf raw) v v' n alpha beta (hv'.trans hv.symm) e2
    rw [e2'] at hf
    have := Option.some.inj hf
    simp only [Prod.mk.injEq] at this
    exact ⟨this.1.symm, this.2.1.symm⟩
  have hd0 := hd
  obtain ⟨l1, l2, d1, d2⟩ := hd
  have hF1 := quadRound_folds h2 (libraOne_deg (F := F))
  have hF2 := fun fu : F => quadRound_folds h2 (libraTwo_deg fu)
  obtain ⟨one', P1, fin, fin', cl, bU, cl', bU', q1, q2, q3, y1, y1'⟩ := rounds_same hF1 hF1 ho params.gen1 params.gen3 hs1 hs3
    d.one N claim blind [v, m1, a1, a2] claim' blind' [v', m1', a1', a2'] d1 (l1 ▸ ok1) (l1 ▸ ok1') he
  rw [l1, ← hru] at y1 y1'
  rw [l1] at q1
  obtain ⟨rfl, rfl⟩ := rounds_end hF1 ch params.gen1 params.gen3 d.one claim blind _ d1 (l1 ▸ ok1) t1 y1
  obtain ⟨rfl, rfl⟩ := rounds_end hF1 ch params.gen1 params.gen3 one' claim' blind' _ q2 (q1 ▸ ok1') t1' y1'
  have q3' : commitVec params.gen1.generators [mle v ru * mle m1 ru + mle v ru * mle a1 ru + mle a2 ru] params.gen1.h bU =
    commitVec params.gen1.generators [mle v' ru * mle m1' ru + mle v' ru * mle a1' ru + mle a2' ru] params.gen1.h bU' := q3
  obtain ⟨two', P2, fin, fin', cl, bV, cl', bV', w1, w2, w3, y2, y2'⟩ := rounds_same (hF2 (mle v ru)) (hF2 (mle v' ru)) ho
    params.gen1 params.gen3 hs1 hs3 d.two (N + 11 * n + 1) _ bU [v, m2, ad] _ bU' [v', m2, ad] d2 (l2 ▸ ok2) (l2 ▸ ok2') q3'
  rw [l2, ← hrv] at y2 y2'
  rw [l2] at w1
  obtain ⟨rfl, rfl⟩ := rounds_end (hF2 (mle v ru)) ch params.gen1 params.gen3 d.two _ bU _ d2 (l2 ▸ ok2) t2 y2
  obtain ⟨rfl, rfl⟩ := rounds_end (hF2 (mle v' ru)) ch params.gen1 params.gen3 two' _ bU' _ w2 (w1 ▸ ok2') t2' y2'
  obtain ⟨x', hx'⟩ := hs1.blind params.gen1.generators (commitVec params.gen1.generators [mle v ru] params.gen1.h d.x) [mle v' ru]
  obtain ⟨y', hy'⟩ := hs1.blind params.gen1.generators (commitVec params.gen1.generators [mle v rv] params.gen1.h d.y) [mle v' rv]
  obtain ⟨z', hz'⟩ := hs1.blind params.gen1.generators
    (commitVec params.gen1.generators [mle v ru * mle v rv] params.gen1.h d.z) [mle v' ru * mle v' rv]
  obtain ⟨c0, c1, c2, c3, c4, PR, y3, y3'⟩ := product_same ho params.gen1 (mle v ru) d.x (mle v rv) d.y d.z (mle v' ru) x'
    (mle v' rv) y' z' hx'.symm hy'.symm hz'.symm d.b0 d.b1 d.b2 d.b3 d.b4 (N + 11 * n + 1 + 11 * n + 1)
  have k1 := final_lin params.gen1.generators params.gen1.h (mle v ru) (mle v rv) (mle v ru * mle v rv) d.x d.y d.z
    (mle ad rv) (mle m2 rv)
  have k2 := final_lin params.gen1.generators params.gen1.h (mle v' ru) (mle v' rv) (mle v' ru * mle v' rv) x' y' z'
    (mle ad rv) (mle m2 rv)
  rw [hx', hy', hz'] at k2
  have val : ∀ w : List F, libraTwo (mle w ru) (fun i => ([w, m2, ad].map fun t => mle t rv).getD i 0) =
      mle w ru * mle w rv * mle m2 rv + (mle w ru + mle w rv) * mle ad rv := by
    intro w
    show mle m2 rv * mle w rv * mle w ru + mle ad rv * mle w ru + mle ad rv * mle w rv = _
    ring
  rw [val, val] at w3
  obtain ⟨E, y4, y4'⟩ := eq_same ho params.gen1 hs1 _ _ _ _ _ _ (k1.symm.trans k2) w3 d.eq (N + 11 * n + 1 + 11 * n + 1 + 7)
  rw [show N + 22 * n + 13 = N + 11 * n + 1 + 11 * n + 1 + 7 + 4 by ring]
  have A := layer_yields params (gatesOf raw) v n hn gu gv alpha beta claim blind d hd0 ru rv m1 a1 a2 m2 ad N e1 ok1 e2 ok2
    P1 P2 _ _ bU bV PR E _ _ _ _ _ _ _ y1 y2 y3 y4
  have hd' : (⟨one', two', x', y', z', c0, c1, c2, c3, c4, d.eq⟩ : LayerDraw F).Ok n := ⟨q1, w1, q2, w2⟩
  have A' := layer_yields params (gatesOf raw) v' n hn gu gv alpha beta claim' blind'
    ⟨one', two', x', y', z', c0, c1, c2, c3, c4, d.eq⟩ hd' ru rv m1' a1' a2' m2 ad N e1' ok1' e2' ok2'
    P1 P2 _ _ bU' bV' PR E _ _ _ _ _ _ _ y1' y2' y3' y4'
  refine ⟨⟨one', two', x', y', z', c0, c1, c2, c3, c4, d.eq⟩, _, hd', hx'.symm, hy'.symm, A, ?_⟩
  simp only at A'
  rw [hx', hy'] at A'
  exact A'

theorem layer_inj (h2 : (2 : F) ≠ 0) {ch : Oracle F G} (ho : Oblivious ch) (params : Params G) (hs1 : Spans F params.gen1.h)
    (hs3 : Spans F params.gen3.h) (raw : List (Nat × Nat × Nat)) (v : List F) (n : Nat) (hn : 1 ≤ n) (gu gv : List F)
    (alpha beta claim blind : F) (h : gu.length = gv.length) (hv : v.length = 2 ^ n)
    (hk : raw.length ≤ 2 ^ gu.length) (hl : ∀ g ∈ raw, Legal (2 ^ n) g)
    (hc : claim = alpha * mle (raw.map (gateValue v)) gu + beta * mle (raw.map (gateValue v)) gv)
    (d d' : LayerDraw F) (hd : d.Ok n) (hd' : d'.Ok n) (N n1 n2 : Nat) (p : ZkLayer F G) (x y : List F × List F × F × F × F)
    (Y : Yields (zkLayerProve ch params (gatesOf raw) v n gu gv alpha beta claim blind d.rand) N (p, x) n1)
    (Y' : Yields (zkLayerProve ch params (gatesOf raw) v n gu gv alpha beta claim blind d'.rand) N (p, y) n2) : d = d' := by
  obtain ⟨ru, hru⟩ : ∃ ru, ru = roundChals ch N n := ⟨_, rfl⟩
  obtain ⟨rv, hrv⟩ : ∃ rv, rv = roundChals ch (N + 11 * n + 1) n := ⟨_, rfl⟩
  have hlu : ru.length = n := by rw [hru, roundChals_length]
  obtain ⟨m1, a1, a2, m2, ad, e1, ok1, t1, e2, ok2, t2⟩ := layer_tables raw v n gu gv alpha beta claim h hv hk hl hc ru hlu
  have hF1 := quadRound_folds h2 (libraOne_deg (F := F))
  have hF2 := quadRound_folds h2 (libraTwo_deg (mle v ru))
  have parts : ∀ d : LayerDraw F, d.Ok n → ∃ P1 P2 bU bV PR E cx cy cz cl1 cl2 N4,
      Yields (hidingRounds ch params.gen1 params.gen3 3 (quadRound libraOne) d.one claim blind [v, m1, a1, a2]) N
        (P1, ru, [v, m1, a1, a2].map (fun t => [mle t ru]), cl1, bU) (N + 11 * n) ∧
      Yields (hidingRounds ch params.gen1 params.gen3 3 (quadRound (libraTwo (mle v ru))) d.two
        (mle v ru * mle m1 ru + mle v ru * mle a1 ru + mle a2 ru) bU [v, m2, ad]) (N + 11 * n + 1)
        (P2, rv, [v, m2, ad].map (fun t => [mle t rv]), cl2, bV) (N + 11 * n + 1 + 11 * n) ∧
      Yields (productProve ch params.gen1 (mle v ru) d.x (mle v rv) d.y (mle v ru * mle v rv) d.z d.b0 d.b1 d.b2 d.b3 d.b4)
        (N + 11 * n + 1 + 11 * n + 1) (PR, cx, cy, cz) (N + 11 * n + 1 + 11 * n + 1 + 7) ∧
      cz = commitVec params.gen1.generators [mle v ru * mle v rv] params.gen1.h d.z ∧
      Yields (eqProve ch params.gen1 (mle v ru * mle v rv * mle m2 rv + (mle v ru + mle v rv) * mle ad rv)
        (d.z * mle m2 rv + (d.x + d.y) * mle ad rv) (mle v ru * mle v rv * mle m2 rv + (mle v ru + mle v rv) * mle ad rv) bV d.eq)
        (N + 11 * n + 1 + 11 * n + 1 + 7) E N4 ∧
      Yields (zkLayerProve ch params (gatesOf raw) v n gu gv alpha beta claim blind d.rand) N
        (⟨P1, P2, commitVec params.gen1.generators [mle v ru] params.gen1.h d.x,
          commitVec params.gen1.generators [mle v rv] params.gen1.h d.y, cz, PR, E⟩, ru, rv, mle v ru, mle v ru, mle v rv) N4 := by
    intro d hd
    have hd0 := hd
    obtain ⟨l1, l2, d1, d2⟩ := hd
    obtain ⟨-, P1, fin, -, cl, bU, -, -, -, -, -, y1, -⟩ := rounds_same hF1 hF1 ho params.gen1 params.gen3 hs1 hs3
      d.one N claim blind [v, m1, a1, a2] claim blind [v, m1, a1, a2] d1 (l1 ▸ ok1) (l1 ▸ ok1) rfl
    rw [l1, ← hru] at y1
    obtain ⟨rfl, rfl⟩ := rounds_end hF1 ch params.gen1 params.gen3 d.one claim blind _ d1 (l1 ▸ ok1) t1 y1
    obtain ⟨-, P2, fin, -, cl, bV, -, -, -, -, -, y2, -⟩ := rounds_same hF2 hF2 ho
      params.gen1 params.gen3 hs1 hs3 d.two (N + 11 * n + 1) (mle v ru * mle m1 ru + mle v ru * mle a1 ru + mle a2 ru) bU
      [v, m2, ad] _ bU [v, m2, ad] d2 (l2 ▸ ok2) (l2 ▸ ok2) rfl
    rw [l2, ← hrv] at y2
    obtain ⟨rfl, rfl⟩ := rounds_end hF2 ch params.gen1 params.gen3 d.two _ bU _ d2 (l2 ▸ ok2) t2 y2
    have y3 := product_yields ho params.gen1 (mle v ru) d.x (mle v rv) d.y (mle v ru * mle v rv) d.z d.b0 d.b1 d.b2 d.b3 d.b4
      (N + 11 * n + 1 + 11 * n + 1)
    have y4 := eq_yields ho params.gen1 (mle v ru * mle v rv * mle m2 rv + (mle v ru + mle v rv) * mle ad rv)
        (d.z * mle m2 rv + (d.x + d.y) * mle ad rv) (mle v ru * mle v rv * mle m2 rv + (mle v ru + mle v rv) * mle ad rv) bV d.eq
        (N + 11 * n + 1 + 11 * n + 1 + 7)
    exact ⟨P1, P2, bU, bV, _, _, _, _, _, _, _, _, y1, y2, y3, rfl, y4, layer_yields params (gatesOf raw) v n hn gu gv alpha beta
      claim blind d hd0 ru rv m1 a1 a2 m2 ad N e1 ok1 e2 ok2 P1 P2 _ _ bU bV _ _ _ _ _ _ _ _ _ y1 y2 y3 y4⟩
  obtain ⟨P1, P2, bU, bV, PR, E, cx, cy, cz, cl1, cl2, N4, y1, y2, y3, hz, y4, Z⟩ := parts d hd
  obtain ⟨P1', P2', bU', bV', PR', E', cx', cy', cz', cl1', cl2', N4', y1', y2', y3', hz', y4', Z'⟩ := parts d' hd'
  have e := ((Prod.mk.inj (Z.unique Y).1).1).trans ((Prod.mk.inj (Z'.unique Y').1).1).symm
  simp only [ZkLayer.mk.injEq] at e
  obtain ⟨rfl, rfl, f3, f4, rfl, rfl, rfl⟩ := e
  have g1 := rounds_inj hF1 ho params.gen1 params.gen3 hs1 hs3 d.one d'.one N _ _ claim blind _ P1 _ _ hd.2.2.1 hd'.2.2.1
    (hd'.1.trans hd.1.symm) (hd.1 ▸ ok1) y1 y1'
  have gU : bU = bU' := by
    rw [← g1] at y1'
    have := (y1.unique y1').1
    simp only [Prod.mk.injEq] at this
    exact this.2.2.2.2
  subst gU
  have g2 := rounds_inj hF2 ho params.gen1 params.gen3 hs1 hs3 d.two d'.two _ _ _ _ bU _ P2 _ _ hd.2.2.2 hd'.2.2.2
    (hd'.2.1.trans hd.2.1.symm) (hd.2.1 ▸ ok2) y2 y2'
  have gV : bV = bV' := by
    rw [← g2] at y2'
    have := (y2.unique y2').1
    simp only [Prod.mk.injEq] at this
    exact this.2.2.2.2
  subst gV
  have gx := hs1.blind_inj f3
  have gy := hs1.blind_inj f4
  have gz := hs1.blind_inj (hz.symm.trans hz')
  rw [← gx, ← gy, ← gz] at y3' y4'
  obtain ⟨b0, b1, b2, b3, b4⟩ := product_inj ho params.gen1 _ _ _ _ _ _ _ _ _ _ _ _ _ _ _ _ _ _ _ PR _ _ y3 y3'
  have ge := eq_inj ho params.gen1 _ _ _ _ _ _ _ _ _ E y4 y4'
  cases d; cases d'
  simp only at g1 g2 gx gy gz b0 b1 b2 b3 b4 ge
  rw [g1, g2, gx, gy, gz, b0, b1, b2, b3, b4, ge]

end Zkp.Lz
