/- C77: Libra's linear GKR prover; C59: its verifier. -/
import Verif.Proof.Libra

namespace Zkp.Gkr

open Zkp.Ml Zkp.Spartan Zkp.Sc

set_option linter.unusedSectionVars false
set_option linter.unusedSimpArgs false

variable {F : Type} [Field F] {G : Type} [AddCommGroup G] [Module F G] [DecidableEq F] [DecidableEq G]

/-- The layers from `top` down to `bottom`, each computed from the one below, which is a full hypercube. -/
def Chain : List F → List (List Gate × List F × Nat) → List F → Prop
  | top, [], bottom => top = bottom
  | top, x :: rest, bottom => (∃ raw, x.1 = gatesOf raw ∧ x.2.1.length = 2 ^ x.2.2 ∧
      (∀ g ∈ raw, Legal (2 ^ x.2.2) g) ∧ top = raw.map (gateValue x.2.1)) ∧ Chain x.2.1 rest bottom

theorem Chain.append {a b c : List F} {xs ys : List (List Gate × List F × Nat)} (h : Chain a xs b) (h' : Chain b ys c) :
    Chain a (xs ++ ys) c := by
  induction xs generalizing a with
  | nil => obtain rfl := h; exact h'
  | cons x xs ih => exact ⟨h.1, ih h.2⟩

/-- All layers: the prover succeeds, and the verifier accepts them with the same transcript. -/
theorem layers_run (h2 : (2 : F) ≠ 0) (ch : Oracle F G) (items : List (List Gate × List F × Nat)) (hne : items ≠ [])
    (top bottom gu gv : List F) (alpha beta resultU resultV : F) (h : gu.length = gv.length)
    (hk : top.length ≤ 2 ^ gu.length) (hch : Chain top items bottom)
    (hc : alpha * resultU + beta * resultV = alpha * mle top gu + beta * mle top gv) (tr : Transcript F G) :
    ∃ ps ru rv tr', proveLayers ch items gu gv resultU resultV alpha beta tr = .ok (ps, tr') ∧
      ps.length = items.length ∧ bottom.length = 2 ^ ru.length ∧ ru.length = rv.length ∧
      verifyLayers ch ps (items.map (·.2.2)) resultU resultV alpha beta tr =
        .ok ((ru, rv, mle bottom ru, mle bottom rv), tr') := by
  induction items generalizing top gu gv alpha beta resultU resultV tr with
  | nil => exact absurd rfl hne
  | cons x rest ih =>
    obtain ⟨gates, v, n⟩ := x
    obtain ⟨⟨raw, rfl, hv, hl, rfl⟩, hrest⟩ := hch
    simp only at hv hl hrest
    obtain ⟨p, ru, rv, tr', a1, a2, a3, a4⟩ := layer_run h2 ch raw v n gu gv alpha beta (alpha * resultU + beta * resultV) h hv
      (by simpa using hk) hl hc tr
    cases rest with
    | nil =>
      obtain rfl := hrest
      refine ⟨[p], ru, rv, tr', ?_, rfl, by rw [hv, a2], a2.trans a3.symm, ?_⟩
      · apply runs_eq
        unfold proveLayers
        refine (runs_of a1).bind fun x t e => ?_
        obtain ⟨rfl, rfl⟩ := e
        exact Runs.pure ⟨rfl, rfl⟩
      · apply runs_eq
        unfold verifyLayers
        refine (runs_of a4).bind fun x t e => ?_
        obtain ⟨rfl, rfl⟩ := e
        exact Runs.pure ⟨rfl, rfl⟩
    | cons y rest =>
      obtain ⟨ps, ru', rv', tr'', b1, b2, b3, b4, b5⟩ := ih (by simp) v ru rv (ch (tr' ++ [.chal "challenge_alpha"]))
        (ch (tr' ++ [.chal "challenge_alpha"] ++ [.chal "challenge_beta"])) (mle v ru) (mle v rv) (a2.trans a3.symm)
        (by rw [hv, a2]) hrest rfl (tr' ++ [.chal "challenge_alpha"] ++ [.chal "challenge_beta"])
      refine ⟨p :: ps, ru', rv', tr'', ?_, by simpa using b2, b3, b4, ?_⟩
      · apply runs_eq
        unfold proveLayers
        refine (runs_of a1).bind fun x t e => ?_
        obtain ⟨rfl, rfl⟩ := e
        refine Runs.challenge.bind fun x t e => ?_
        obtain ⟨rfl, rfl⟩ := e
        refine Runs.challenge.bind fun x t e => ?_
        obtain ⟨rfl, rfl⟩ := e
        refine (runs_of b1).bind fun x t e => ?_
        obtain ⟨rfl, rfl⟩ := e
        exact Runs.pure ⟨rfl, rfl⟩
      · cases ps with
        | nil => simp at b2
        | cons q qs =>
          apply runs_eq
          unfold verifyLayers
          refine (runs_of a4).bind fun x t e => ?_
          obtain ⟨rfl, rfl⟩ := e
          refine Runs.challenge.bind fun x t e => ?_
          obtain ⟨rfl, rfl⟩ := e
          refine Runs.challenge.bind fun x t e => ?_
          obtain ⟨rfl, rfl⟩ := e
          exact runs_of b5

/-- The layers from the bottom. -/
def upward : List F → Nat → List (List (Nat × Nat × Nat)) → List (List Gate × List F × Nat)
  | _, _, [] => []
  | v, n, l :: ls => (gatesOf l, v, n) :: upward (l.map (gateValue v)) (Nat.clog 2 (padTo l.length)) ls

/-- The values of the top layer. -/
def topValues (v : List F) (raw : List (List (Nat × Nat × Nat))) : List F := (v :: circuitValues v raw).getLastD []

theorem topValues_cons (v : List F) (l : List (Nat × Nat × Nat)) (ls : List (List (Nat × Nat × Nat))) :
    topValues v (l :: ls) = topValues (l.map (gateValue v)) ls := by simp [topValues, circuitValues]

theorem layerInputs_eq (raw : List (List (Nat × Nat × Nat))) (v : List F) (l0 : Layer) :
    layerInputs (l0 :: layersOf raw) (v :: circuitValues v raw) = (upward v l0.bitSize raw).reverse := by
  unfold layerInputs
  congr 1
  induction raw generalizing v l0 with
  | nil => rfl
  | cons l ls ih =>
    have := ih (l.map (gateValue v)) ⟨l.length, Nat.clog 2 (padTo l.length), gatesOf l⟩
    simp only [layersOf, List.map_cons, circuitValues, List.zip_cons_cons, List.tail_cons, List.zipWith_cons_cons,
      upward] at this ⊢
    rw [this]

/-- Every layer but the last is a full hypercube. -/
def FullLayers : List (List (Nat × Nat × Nat)) → Prop
  | [] => True
  | [_] => True
  | l :: ls => (∃ k, l.length = 2 ^ k) ∧ FullLayers ls

theorem padTo_pow (k : Nat) : Nat.clog 2 (padTo (2 ^ k)) = k := by
  unfold padTo; rw [Nat.clog_pow 2 k (by decide), Nat.clog_pow 2 k (by decide)]

theorem upward_chain (raw : List (List (Nat × Nat × Nat))) (v : List F) (n : Nat) (hv : v.length = 2 ^ n)
    (hl : LegalLayers (2 ^ n) raw) (hf : FullLayers raw) :
    Chain (topValues v raw) (upward v n raw).reverse v := by
  induction raw generalizing v n with
  | nil => rfl
  | cons l ls ih =>
    obtain ⟨h1, h2⟩ := hl
    have hx : Chain (l.map (gateValue v)) [(gatesOf l, v, n)] v := ⟨⟨l, rfl, hv, h1, rfl⟩, rfl⟩
    rw [topValues_cons, upward, List.reverse_cons]
    cases ls with
    | nil => exact hx
    | cons m ms =>
      obtain ⟨⟨k, hk⟩, hf⟩ := hf
      rw [hk] at h2
      rw [hk, padTo_pow]
      exact (ih (l.map (gateValue v)) k (by simpa using hk) h2 hf).append hx

theorem upward_sizes (raw : List (List (Nat × Nat × Nat))) (v : List F) (l0 : Layer) :
    ((upward v l0.bitSize raw).reverse.map (·.2.2)) = (List.range raw.length).map fun d =>
      (((l0 :: layersOf raw).map fun l => l.bitSize).getD (raw.length + 1 - d - 2) 0) := by
  have h : (upward v l0.bitSize raw).map (·.2.2) = (List.range raw.length).map fun d =>
      ((l0 :: layersOf raw).map fun l => l.bitSize).getD d 0 := by
    induction raw generalizing v l0 with
    | nil => rfl
    | cons l ls ih =>
      have := ih (l.map (gateValue v)) ⟨l.length, Nat.clog 2 (padTo l.length), gatesOf l⟩
      rw [upward, List.map_cons, this, List.length_cons, List.range_succ_eq_map, List.map_cons (l := List.map _ _), List.map_map]
      rfl
  rw [List.map_reverse, h]
  apply List.ext_getElem
  · simp
  · intro i h1 h2
    simp only [List.length_reverse, List.length_map, List.length_range] at h1
    simp only [List.getElem_reverse, List.getElem_map, List.length_map, List.length_range, List.getElem_range]
    congr 1
    omega

theorem topValues_length (raw : List (List (Nat × Nat × Nat))) (l : List (Nat × Nat × Nat)) (v : List F)
    (l0 : Layer) : (topValues v (raw ++ [l])).length = l.length ∧
      (l0 :: layersOf (raw ++ [l]))[raw.length + 1]? = some ⟨l.length, Nat.clog 2 (padTo l.length), gatesOf l⟩ := by
  constructor
  · induction raw generalizing v with
    | nil => simp [topValues, circuitValues]
    | cons m ms ih => rw [List.cons_append, topValues_cons]; exact ih _
  · simp [layersOf]

theorem le_padTo (n : Nat) : n ≤ 2 ^ Nat.clog 2 (padTo n) := by
  unfold padTo
  rw [Nat.clog_pow 2 _ (by decide)]
  exact Nat.le_pow_clog (by decide) n

theorem evalOutput_run (ch : Oracle F G) (out : List F) (n : Nat) (h : out.length ≤ 2 ^ n) (tr : Transcript F G) :
    ∃ rs tr', evalOutput ch out n tr = .ok ((mle out rs, rs), tr') ∧ rs.length = n := by
  suffices hh : Runs (evalOutput ch out n) tr fun x _ => x.1 = mle out x.2 ∧ x.2.length = n by
    obtain ⟨⟨a, rs⟩, tr', h1, h2, h3⟩ := hh
    simp only at h2 h3
    subst h2
    exact ⟨rs, tr', h1, h3⟩
  unfold evalOutput
  refine (Runs.ensure (by simpa using h)).bind fun _ tr e => ?_
  subst e
  obtain ⟨rs, tr', h1, h2⟩ := Succeeds.challenges ch "challenge_nextround" n tr
  refine (show Runs _ _ _ from ⟨_, _, h1, Eq.refl _⟩ : Runs (challenges ch "challenge_nextround" n) _ fun x _ => rs = x).bind
    fun x tr e => ?_
  subst e
  have hz : mle (out ++ List.replicate (2 ^ n - out.length) 0) rs = mle out rs := by
    apply mle_congr
    intro i _
    by_cases hv : i < out.length
    · rw [List.getD_append _ _ _ _ hv]
    · rw [List.getD_append_right _ _ _ _ (by omega), List.getD_eq_default out 0 (by omega), replicate_getD]
  refine (Runs.orPanic (evalValue_eq _ rs (by simp [h2]; omega))).bind fun x tr e => ?_
  obtain ⟨rfl, rfl⟩ := e
  exact Runs.pure ⟨hz, h2⟩

theorem splitLast {α : Type} (l : List α) (h : l ≠ []) : ∃ pre x, l = pre ++ [x] :=
  ⟨l.dropLast, l.getLast h, (List.dropLast_append_getLast h).symm⟩

/-- The honest prover succeeds, and the verifier accepts its proof for the computed outputs, for every
circuit accepted at construction in which each layer but the last has a power of two of gates, all inputs
and witness values and every hash function.

Partial: the full claim is for all circuits accepted at construction; it is false (`C77_violated`). -/
theorem C77_partial (h2 : (2 : F) ≠ 0) (ch : Oracle F G) (ni na : Nat) (raw : List (List (Nat × Nat × Nat))) (c : Circuit)
    (hc : Circuit.new ni na raw = .ok c) (hne : raw ≠ []) (hf : FullLayers raw) (inputs aux : List F)
    (hi : inputs.length ≤ ni) (ha : aux.length ≤ na) (hash : F) :
    ∃ v0 proofs, c.evaluate inputs aux = .ok (v0 :: circuitValues v0 raw) ∧
      linearProver ch c inputs aux hash = .ok (proofs, topValues v0 raw) ∧
      linearVerify ch c (topValues v0 raw) v0 hash proofs = .ok true := by
  obtain ⟨v0, e0, hv0, ev⟩ := C55_evaluates ni na raw c hc inputs aux hi ha
  have hl := (C55_accepted ni na raw).1 ⟨c, hc⟩
  rw [new_eq ni na raw hl] at hc
  obtain rfl := (Except.ok.inj hc).symm
  have hb : 2 * 2 ^ Nat.clog 2 (max na ni) = 2 ^ (inputNew ni na).bitSize := by
    rw [inputNew_bitSize, pow_succ]; omega
  rw [hb] at hl hv0
  obtain ⟨pre, l, rfl⟩ := splitLast raw hne
  obtain ⟨t1, t2⟩ := topValues_length pre l v0 (inputNew ni na)
  have hout : (topValues v0 (pre ++ [l])).length ≤ 2 ^ Nat.clog 2 (padTo l.length) := by rw [t1]; exact le_padTo _
  obtain ⟨gu, tr1, o1, o2⟩ := evalOutput_run ch (topValues v0 (pre ++ [l])) _ hout
    (linearStart hash v0 (topValues v0 (pre ++ [l])))
  obtain ⟨ps, ru, rv, tr', r1, r2, r3, r4, r5⟩ := layers_run h2 ch (upward v0 (inputNew ni na).bitSize (pre ++ [l])).reverse
    (by cases pre <;> simp [upward]) (topValues v0 (pre ++ [l])) v0 gu (List.replicate gu.length 0) 1 0
    (mle (topValues v0 (pre ++ [l])) gu) 0 (by simp) (by rw [o2]; exact hout) (upward_chain _ v0 _ hv0 hl hf)
    (by simp) tr1
  have hlen : ps.length = (pre ++ [l]).length := by
    rw [r2, List.length_reverse]
    have : ∀ (raw : List (List (Nat × Nat × Nat))) (v : List F) n, (upward v n raw).length = raw.length := by
      intro raw
      induction raw with
      | nil => intros; rfl
      | cons a l ih => intros; simp [upward, ih]
    exact this _ _ _
  refine ⟨v0, ps, ev, ?_, ?_⟩
  · unfold linearProver
    simp only [ev]
    have hr : (do
        let last ← orPanic (inputNew ni na :: layersOf (pre ++ [l]))[(pre ++ [l]).length + 1 - 1]?
        let (resultU, gu) ← evalOutput ch ((v0 :: circuitValues v0 (pre ++ [l])).getLastD []) last.bitSize
        proveLayers ch (layerInputs (inputNew ni na :: layersOf (pre ++ [l])) (v0 :: circuitValues v0 (pre ++ [l]))) gu
          (List.replicate gu.length 0) resultU 0 1 0 : Vf F G (List (LayerProof F)))
        (linearStart hash v0 (topValues v0 (pre ++ [l]))) = .ok (ps, tr') := by
      suffices hh : Runs _ (linearStart hash v0 (topValues v0 (pre ++ [l]))) fun out tr => out = ps ∧ tr = tr' by
        obtain ⟨a, t, h, rfl, rfl⟩ := hh; exact h
      refine (Runs.orPanic (by simpa using t2)).bind fun x tr e => ?_
      obtain ⟨rfl, rfl⟩ := e
      refine (show Runs _ _ _ from ⟨_, _, o1, Eq.refl _, Eq.refl _⟩ : Runs (evalOutput ch (topValues v0 (pre ++ [l])) _) _
        fun x tr => (mle (topValues v0 (pre ++ [l])) gu, gu) = x ∧ tr1 = tr).bind fun x tr e => ?_
      obtain ⟨rfl, rfl⟩ := e
      simp only [layerInputs_eq]
      exact ⟨_, _, r1, rfl, rfl⟩
    have ht : (v0 :: circuitValues v0 (pre ++ [l])).getLastD [] = topValues v0 (pre ++ [l]) := rfl
    simp only [ht, List.headD_cons] at hr ⊢
    rw [hr]
  · have hr : (do
        ensure .panic (1 ≤ (pre ++ [l]).length + 1)
        let last ← orPanic (inputNew ni na :: layersOf (pre ++ [l]))[(pre ++ [l]).length + 1 - 1]?
        let (resultU, _) ← evalOutput ch (topValues v0 (pre ++ [l])) last.bitSize
        ensure .panic ((pre ++ [l]).length + 1 - 1 = ps.length)
        ensure .panic ((pre ++ [l]).length + 1 ≤ (inputNew ni na :: layersOf (pre ++ [l])).length)
        let sizes := (List.range ((pre ++ [l]).length + 1 - 1)).map fun d =>
          (((inputNew ni na :: layersOf (pre ++ [l])).map fun l => l.bitSize).getD ((pre ++ [l]).length + 1 - d - 2) 0)
        let (ru, rv, fu, fv) ← verifyLayers ch ps sizes resultU 0 1 0
        let x ← orPanic (evalValue v0 ru)
        let y ← orPanic (evalValue v0 rv)
        pure (decide (fu = x) && decide (fv = y)) : Vf F G Bool)
        (linearStart hash v0 (topValues v0 (pre ++ [l]))) = .ok (true, tr') := by
      suffices hh : Runs _ (linearStart hash v0 (topValues v0 (pre ++ [l]))) fun out tr => out = true ∧ tr = tr' by
        obtain ⟨a, t, h, rfl, rfl⟩ := hh; exact h
      refine (Runs.ensure (by simp)).bind fun _ _ e => ?_
      subst e
      refine (Runs.orPanic (by simpa using t2)).bind fun x tr e => ?_
      obtain ⟨rfl, rfl⟩ := e
      refine (show Runs _ _ _ from ⟨_, _, o1, Eq.refl _, Eq.refl _⟩ : Runs (evalOutput ch (topValues v0 (pre ++ [l])) _) _
        fun x tr => (mle (topValues v0 (pre ++ [l])) gu, gu) = x ∧ tr1 = tr).bind fun x tr e => ?_
      obtain ⟨rfl, rfl⟩ := e
      refine (Runs.ensure (by simpa using hlen.symm)).bind fun _ _ e => ?_
      subst e
      refine (Runs.ensure (by simp [layersOf])).bind fun _ _ e => ?_
      subst e
      simp only [Nat.add_sub_cancel]
      rw [upward_sizes] at r5
      refine (show Runs _ _ _ from ⟨_, _, r5, Eq.refl _, Eq.refl _⟩ : Runs (verifyLayers ch ps _ _ _ _ _) _
        fun x tr => (ru, rv, mle v0 ru, mle v0 rv) = x ∧ tr' = tr).bind fun x tr e => ?_
      obtain ⟨rfl, rfl⟩ := e
      refine (Runs.orPanic (evalValue_eq v0 ru r3.le)).bind fun x tr e => ?_
      obtain ⟨rfl, rfl⟩ := e
      refine (Runs.orPanic (evalValue_eq v0 rv (r4 ▸ r3.le))).bind fun x tr e => ?_
      obtain ⟨rfl, rfl⟩ := e
      exact Runs.pure ⟨by simp, rfl⟩
    unfold linearVerify linearRun
    simp only at hr ⊢
    rw [hr]

theorem exFull : FullLayers [[(0, 0, 1), (1, 2, 3)], [(1, 0, 1), (0, 1, 1), (0, 0, 0)]] := ⟨⟨1, rfl⟩, trivial⟩

/-- A circuit with two gates and three outputs. -/
example : ∃ c v0 proofs, Circuit.new 2 2 [[(0, 0, 1), (1, 2, 3)], [(1, 0, 1), (0, 1, 1), (0, 0, 0)]] = .ok c ∧
    linearProver (fun tr : Transcript F17 F17 => ((3 * tr.length + 5 : Nat) : F17)) c [1, 4] [3, 5] 9 =
      .ok (proofs, topValues v0 [[(0, 0, 1), (1, 2, 3)], [(1, 0, 1), (0, 1, 1), (0, 0, 0)]]) ∧
    linearVerify (fun tr : Transcript F17 F17 => ((3 * tr.length + 5 : Nat) : F17)) c
      (topValues v0 [[(0, 0, 1), (1, 2, 3)], [(1, 0, 1), (0, 1, 1), (0, 0, 0)]]) v0 9 proofs = .ok true := by
  obtain ⟨c, hc⟩ := (C55_accepted 2 2 [[(0, 0, 1), (1, 2, 3)], [(1, 0, 1), (0, 1, 1), (0, 0, 0)]]).2 (by
    have : Nat.clog 2 (max 2 2) = 1 := by decide
    rw [this]; simp [LegalLayers, Legal])
  obtain ⟨v0, proofs, _, h1, h2⟩ := C77_partial two17 (fun tr : Transcript F17 F17 => ((3 * tr.length + 5 : Nat) : F17))
    2 2 _ c hc (by simp) exFull [1, 4] [3, 5] (by simp) (by simp) 9
  exact ⟨c, v0, proofs, hc, h1, h2⟩

/-! ### Layers that are not full -/

theorem upward_top (pre : List (List (Nat × Nat × Nat))) (m l : List (Nat × Nat × Nat)) (v : List F) (n : Nat) :
    ∃ w rest, (upward v n (pre ++ [m, l])).reverse = (gatesOf l, w, Nat.clog 2 (padTo m.length)) :: rest ∧
      w.length = m.length := by
  induction pre generalizing v n with
  | nil => exact ⟨m.map (gateValue v), [(gatesOf m, v, n)], by simp [upward], by simp⟩
  | cons a pre ih =>
    obtain ⟨w, rest, h1, h2⟩ := ih (a.map (gateValue v)) (Nat.clog 2 (padTo a.length))
    refine ⟨w, rest ++ [(gatesOf a, v, n)], ?_, h2⟩
    rw [List.cons_append, upward, List.reverse_cons, h1]
    rfl

theorem bind_error {α β : Type} {m : Vf F G α} {f : α → Vf F G β} {tr : Transcript F G} {e : Stop}
    (h : m tr = .error e) : (m >>= f) tr = .error e := by
  show StateT.bind m f tr = _
  simp only [StateT.bind, h]
  rfl

theorem bind_ok {α β : Type} {m : Vf F G α} {f : α → Vf F G β} {tr tr' : Transcript F G} {a : α}
    (h : m tr = .ok (a, tr')) : (m >>= f) tr = f a tr' := by
  show StateT.bind m f tr = _
  simp only [StateT.bind, h]
  rfl

/-- The prover panics for every circuit, accepted at construction, in which the layer below the outputs
does not have a power of two of gates: the values of such a layer are not padded. -/
theorem C77_violated (ch : Oracle F G) (ni na : Nat) (pre : List (List (Nat × Nat × Nat))) (m l : List (Nat × Nat × Nat))
    (c : Circuit) (hc : Circuit.new ni na (pre ++ [m, l]) = .ok c) (hm : ∀ k, m.length ≠ 2 ^ k) (inputs aux : List F)
    (hi : inputs.length ≤ ni) (ha : aux.length ≤ na) (hash : F) :
    linearProver ch c inputs aux hash = .error .panic := by
  obtain ⟨v0, e0, hv0, ev⟩ := C55_evaluates ni na _ c hc inputs aux hi ha
  have hl := (C55_accepted ni na _).1 ⟨c, hc⟩
  rw [new_eq ni na _ hl] at hc
  obtain rfl := (Except.ok.inj hc).symm
  obtain ⟨t1, t2⟩ := topValues_length (pre ++ [m]) l v0 (inputNew ni na)
  have hsplit : pre ++ [m, l] = pre ++ [m] ++ [l] := by simp
  rw [hsplit] at ev
  obtain ⟨w, rest, hw, hwl⟩ := upward_top pre m l v0 (inputNew ni na).bitSize
  rw [hsplit] at hw ⊢
  obtain ⟨gu, tr1, o1, o2⟩ := evalOutput_run ch (topValues v0 (pre ++ [m] ++ [l])) _ (by rw [t1]; exact le_padTo _)
    (linearStart hash v0 (topValues v0 (pre ++ [m] ++ [l])))
  unfold linearProver
  simp only [ev]
  have ht : (v0 :: circuitValues v0 (pre ++ [m] ++ [l])).getLastD [] = topValues v0 (pre ++ [m] ++ [l]) := rfl
  simp only [ht, List.headD_cons, layerInputs_eq, hw]
  have hlast : (inputNew ni na :: layersOf (pre ++ [m] ++ [l]))[(pre ++ [m] ++ [l]).length + 1 - 1]? =
      some ⟨l.length, Nat.clog 2 (padTo l.length), gatesOf l⟩ := by simpa using t2
  rw [hlast]
  have e1 : (orPanic (some (⟨l.length, Nat.clog 2 (padTo l.length), gatesOf l⟩ : Layer)) : Vf F G Layer)
    (linearStart hash v0 (topValues v0 (pre ++ [m] ++ [l]))) = .ok (_, _) := rfl
  rw [bind_ok e1, bind_ok o1]
  have hlayer : proveLayer ch (gatesOf l) w (Nat.clog 2 (padTo m.length)) gu (List.replicate gu.length 0) 1 0
      (1 * mle (topValues v0 (pre ++ [m] ++ [l])) gu + 0 * 0) tr1 = .error .panic := by
    unfold proveLayer
    cases hp : initPhaseOne gu (List.replicate gu.length 0) (gatesOf l) w (Nat.clog 2 (padTo m.length)) 1 0 with
    | none => exact bind_error rfl
    | some x =>
      obtain ⟨mul, add1, add2⟩ := x
      have e2 : (orPanic (some (mul, add1, add2)) : Vf F G _) tr1 = .ok ((mul, add1, add2), tr1) := rfl
      rw [bind_ok e2]
      apply bind_error
      unfold phaseOneProver
      apply bind_error
      have : w.length ≠ 2 ^ Nat.clog 2 (padTo m.length) := by rw [hwl]; exact hm _
      simp only [this, and_false, decide_false]
      rfl
  have hall : proveLayers ch ((gatesOf l, w, Nat.clog 2 (padTo m.length)) :: rest) gu (List.replicate gu.length 0)
      (mle (topValues v0 (pre ++ [m] ++ [l])) gu) 0 1 0 tr1 = .error .panic := by
    unfold proveLayers
    exact bind_error hlayer
  rw [hall]

/-- A middle layer with three gates. -/
example : ∃ c, Circuit.new 2 2 [[(0, 0, 1), (1, 2, 3), (1, 1, 1)], [(1, 0, 1)]] = .ok c ∧
    linearProver (fun tr : Transcript F17 F17 => ((3 * tr.length + 5 : Nat) : F17)) c [1, 4] [3, 5] 9 = .error .panic := by
  obtain ⟨c, hc⟩ := (C55_accepted 2 2 [[(0, 0, 1), (1, 2, 3), (1, 1, 1)], [(1, 0, 1)]]).2 (by
    have : Nat.clog 2 (max 2 2) = 1 := by decide
    rw [this]; simp [LegalLayers, Legal])
  refine ⟨c, hc, C77_violated _ 2 2 [] _ _ c hc ?_ [1, 4] [3, 5] (by simp) (by simp) 9⟩
  intro k h
  have h : 3 = 2 ^ k := h
  rcases k with _ | _ | k
  · simp at h
  · simp at h
  · rw [pow_succ, pow_succ] at h; omega

/-! ### C59: a forgery -/

/-- Constant round polynomials, each half of the claim. -/
def halves : Nat → F → List (List F)
  | 0, _ => []
  | n + 1, c => [c / 2] :: halves n (c / 2)

theorem halves_run (h2 : (2 : F) ≠ 0) (ch : Oracle F G) (n : Nat) (c : F) (tr : Transcript F G) :
    ∃ rs tr1, plainVerify ch (halves n c) n 0 c tr = .ok ((rs, c / 2 ^ n), tr1) ∧ rs.length = n := by
  have h : ∃ rs tr1, Sync ch "poly" (halves n c) rs tr tr1 ∧ RoundsOk (halves n c) rs c (c / 2 ^ n) ∧ rs.length = n := by
    induction n generalizing c tr with
    | zero => exact ⟨[], tr, rfl, by simp [RoundsOk, halves], rfl⟩
    | succ n ih =>
      obtain ⟨rs, tr1, a1, a2, a3⟩ := ih (c / 2) (tr ++ [.frs "poly" [c / 2]] ++ [.chal "challenge_nextround"])
      refine ⟨_ :: rs, tr1, ⟨rfl, a1⟩, ⟨?_, ?_⟩, by simp [a3]⟩
      · simp [polyEval]; field_simp; ring
      · have e : c / 2 ^ (n + 1) = c / 2 / 2 ^ n := by rw [pow_succ', div_div]
        rw [e]
        simpa [polyEval] using a2
  obtain ⟨rs, tr1, a1, a2, a3⟩ := h
  have := plainVerify_run ch [] (halves n c) rs c _ tr tr1 a1 a2
  simp only [List.nil_append, List.length_nil, sync_length a1, a3] at this
  exact ⟨rs, tr1, this, a3⟩

/-- For any claim a layer can be answered, with any nonzero values at the two points. -/
theorem forge_layer (h2 : (2 : F) ≠ 0) (ch : Oracle F G) (n : Nat) (claim : F) (f g : List F → F)
    (hf : ∀ r, r.length = n → f r ≠ 0) (hg : ∀ r, r.length = n → g r ≠ 0) (tr : Transcript F G) :
    ∃ p ru rv tr', verifyLayer ch p n claim tr = .ok ((ru, rv, f ru, g rv), tr') ∧ ru.length = n ∧ rv.length = n := by
  obtain ⟨ru, tr1, a1, a2⟩ := halves_run h2 ch n claim tr
  obtain ⟨rv, tr2, b1, b2⟩ := halves_run h2 ch n (claim / 2 ^ n) (tr1 ++ [.frs "claim_final" [f ru, 0, 0, claim / 2 ^ n]])
  refine ⟨⟨⟨halves n claim, [f ru, 0, 0, claim / 2 ^ n]⟩,
    ⟨halves n (claim / 2 ^ n), [g rv, claim / 2 ^ n / 2 ^ n / (g rv * f ru), 0]⟩⟩, ru, rv,
    tr2 ++ [.frs "claim_final" [g rv, claim / 2 ^ n / 2 ^ n / (g rv * f ru), 0]], ?_, a2, b2⟩
  apply runs_eq
  unfold verifyLayer
  refine (runs_of a1).bind fun x t e => ?_
  obtain ⟨rfl, rfl⟩ := e
  refine Runs.say.bind fun _ _ e => ?_
  subst e
  refine (Runs.orPanic (a := f ru) (by rfl)).bind fun x tr e => ?_
  obtain ⟨rfl, rfl⟩ := e
  refine (Runs.orPanic (a := 0) (by rfl)).bind fun x tr e => ?_
  obtain ⟨rfl, rfl⟩ := e
  refine (Runs.orPanic (a := 0) (by rfl)).bind fun x tr e => ?_
  obtain ⟨rfl, rfl⟩ := e
  refine (Runs.orPanic (a := claim / 2 ^ n) (by rfl)).bind fun x tr e => ?_
  obtain ⟨rfl, rfl⟩ := e
  refine (Runs.ensure (by simp)).bind fun _ _ e => ?_
  subst e
  refine (runs_of b1).bind fun x t e => ?_
  obtain ⟨rfl, rfl⟩ := e
  refine Runs.say.bind fun _ _ e => ?_
  subst e
  refine (Runs.orPanic (a := g rv) (by rfl)).bind fun x tr e => ?_
  obtain ⟨rfl, rfl⟩ := e
  refine (Runs.orPanic (a := claim / 2 ^ n / 2 ^ n / (g rv * f ru)) (by rfl)).bind fun x tr e => ?_
  obtain ⟨rfl, rfl⟩ := e
  refine (Runs.orPanic (a := 0) (by rfl)).bind fun x tr e => ?_
  obtain ⟨rfl, rfl⟩ := e
  have hfr := hf ru a2
  have hgr := hg rv b2
  refine (Runs.ensure (by simp only [decide_eq_true_eq]; field_simp; ring)).bind fun _ _ e => ?_
  subst e
  exact Runs.pure ⟨rfl, rfl⟩

theorem forge_layers (h2 : (2 : F) ≠ 0) (ch : Oracle F G) (sizes : List Nat) (n : Nat) (f : List F → F)
    (hf : ∀ r, r.length = n → f r ≠ 0) (resultU resultV alpha beta : F) (tr : Transcript F G) :
    ∃ ps ru rv tr', verifyLayers ch ps (sizes ++ [n]) resultU resultV alpha beta tr = .ok ((ru, rv, f ru, f rv), tr') ∧
      ps.length = sizes.length + 1 ∧ ru.length = n ∧ rv.length = n := by
  induction sizes generalizing resultU resultV alpha beta tr with
  | nil =>
    obtain ⟨p, ru, rv, tr', a1, a2, a3⟩ := forge_layer h2 ch n (alpha * resultU + beta * resultV) f f hf hf tr
    refine ⟨[p], ru, rv, tr', ?_, rfl, a2, a3⟩
    apply runs_eq
    rw [List.nil_append]
    unfold verifyLayers
    refine (runs_of a1).bind fun x t e => ?_
    obtain ⟨rfl, rfl⟩ := e
    exact Runs.pure ⟨rfl, rfl⟩
  | cons k sizes ih =>
    obtain ⟨p, ru, rv, tr1, a1, a2, a3⟩ := forge_layer h2 ch k (alpha * resultU + beta * resultV) (fun _ => 1) (fun _ => 1)
      (by simp) (by simp) tr
    obtain ⟨ps, ru', rv', tr', b1, b2, b3⟩ := ih 1 1 (ch (tr1 ++ [.chal "challenge_alpha"]))
      (ch (tr1 ++ [.chal "challenge_alpha"] ++ [.chal "challenge_beta"]))
      (tr1 ++ [.chal "challenge_alpha"] ++ [.chal "challenge_beta"])
    refine ⟨p :: ps, ru', rv', tr', ?_, by simp [b2], b3⟩
    cases ps with
    | nil => simp at b2
    | cons q qs =>
      apply runs_eq
      rw [List.cons_append]
      unfold verifyLayers
      refine (runs_of a1).bind fun x t e => ?_
      obtain ⟨rfl, rfl⟩ := e
      refine Runs.challenge.bind fun x t e => ?_
      obtain ⟨rfl, rfl⟩ := e
      refine Runs.challenge.bind fun x t e => ?_
      obtain ⟨rfl, rfl⟩ := e
      exact runs_of b1

/-- For every circuit with at least one layer of gates, every hash function, all outputs that fit in the last
layer and all input layers whose multilinear extension has no zero (as constant ones) there is a proof that
is accepted. -/
theorem C59_forgery (h2 : (2 : F) ≠ 0) (ch : Oracle F G) (c : Circuit) (hd : c.depth = c.layers.length) (l0 last : Layer)
    (ls : List Layer) (hl : c.layers = l0 :: ls) (hlast : ls.getLast? = some last) (outputs inputs : List F)
    (ho : outputs.length ≤ 2 ^ last.bitSize) (hi : inputs.length ≤ 2 ^ l0.bitSize)
    (hz : ∀ r : List F, r.length = l0.bitSize → mle inputs r ≠ 0) (hash : F) :
    ∃ proofs, linearVerify ch c outputs inputs hash proofs = .ok true := by
  obtain ⟨pre, x, rfl⟩ := splitLast ls (by rintro rfl; simp at hlast)
  obtain rfl : x = last := by simpa using hlast
  obtain ⟨gu, tr1, o1, o2⟩ := evalOutput_run ch outputs x.bitSize ho (linearStart hash inputs outputs)
  have hsz : ∃ sizes, ((List.range (c.depth - 1)).map fun d =>
      ((c.layers.map fun l => l.bitSize).getD (c.depth - d - 2) 0)) = sizes ++ [l0.bitSize] ∧ sizes.length = pre.length := by
    rw [hd, hl]
    refine ⟨(List.range pre.length).map fun d => ((l0 :: (pre ++ [x])).map fun l => l.bitSize).getD ((pre ++ [x]).length + 1 - d - 2) 0, ?_, by simp⟩
    simp only [List.length_cons, List.length_append, List.length_nil, Nat.add_sub_cancel, Nat.zero_add, List.range_succ,
      List.map_append, List.map_cons, List.map_nil]
    congr 2
    have : pre.length + 1 + 1 - pre.length - 2 = 0 := by omega
    rw [this]; rfl
  obtain ⟨sizes, hs, hsl⟩ := hsz
  obtain ⟨ps, ru, rv, tr', r1, r2, r3, r4⟩ := forge_layers h2 ch sizes l0.bitSize (mle inputs) hz (mle outputs gu) 0 1 0 tr1
  refine ⟨ps, ?_⟩
  have hdep : c.depth = pre.length + 2 := by rw [hd, hl]; simp
  unfold linearVerify linearRun
  suffices hh : Runs (do
      ensure .panic (1 ≤ c.depth)
      let last ← orPanic c.layers[c.depth - 1]?
      let (resultU, _) ← evalOutput ch outputs last.bitSize
      ensure .panic (c.depth - 1 = ps.length)
      ensure .panic (c.depth ≤ c.layers.length)
      let sizes := (List.range (c.depth - 1)).map fun d => ((c.layers.map fun l => l.bitSize).getD (c.depth - d - 2) 0)
      let (ru, rv, fu, fv) ← verifyLayers ch ps sizes resultU 0 1 0
      let x ← orPanic (evalValue inputs ru)
      let y ← orPanic (evalValue inputs rv)
      pure (decide (fu = x) && decide (fv = y)) : Vf F G Bool) (linearStart hash inputs outputs)
      fun out tr => true = out ∧ tr' = tr by
    have := runs_eq hh
    simp only at this ⊢
    rw [this]
  refine (Runs.ensure (by simp; omega)).bind fun _ _ e => ?_
  subst e
  refine (Runs.orPanic (a := x) (by rw [hdep, hl]; simp)).bind fun y tr e => ?_
  obtain ⟨rfl, rfl⟩ := e
  refine (runs_of o1).bind fun x t e => ?_
  obtain ⟨rfl, rfl⟩ := e
  refine (Runs.ensure (by simp; omega)).bind fun _ _ e => ?_
  subst e
  refine (Runs.ensure (by simp; omega)).bind fun _ _ e => ?_
  subst e
  simp only [hs]
  refine (runs_of r1).bind fun x t e => ?_
  obtain ⟨rfl, rfl⟩ := e
  refine (Runs.orPanic (evalValue_eq inputs ru (by rw [r3]; exact hi))).bind fun x tr e => ?_
  obtain ⟨rfl, rfl⟩ := e
  refine (Runs.orPanic (evalValue_eq inputs rv (by rw [r4]; exact hi))).bind fun x tr e => ?_
  obtain ⟨rfl, rfl⟩ := e
  exact Runs.pure ⟨by simp, rfl⟩

/-- The verdict does not depend on the gates: circuits with the same depth and the same layer sizes are
treated alike. -/
theorem C59_gates (ch : Oracle F G) (c c' : Circuit) (hd : c.depth = c'.depth)
    (hs : c.layers.map (·.bitSize) = c'.layers.map (·.bitSize)) (outputs inputs : List F) (hash : F)
    (proofs : List (LayerProof F)) :
    linearVerify ch c outputs inputs hash proofs = linearVerify ch c' outputs inputs hash proofs := by
  have hl : c.layers.length = c'.layers.length := by simpa using congrArg List.length hs
  have hb : ∀ i : Nat, (c.layers[i]?).map (·.bitSize) = (c'.layers[i]?).map (·.bitSize) := by
    intro i
    have := congrArg (·[i]?) hs
    simpa using this
  unfold linearVerify linearRun
  simp only [hs, hl, hd]
  have key : ∀ (f : Nat → Vf F G Bool),
      (orPanic c.layers[c'.depth - 1]? >>= fun last => f last.bitSize) =
        (orPanic c'.layers[c'.depth - 1]? >>= fun last => f last.bitSize) := by
    intro f
    have := hb (c'.depth - 1)
    cases h1 : c.layers[c'.depth - 1]? <;> cases h2 : c'.layers[c'.depth - 1]? <;> simp [h1, h2] at this
    · rfl
    · show f _ = f _
      rw [this]
  have hk := key fun b => (do
      let (resultU, _) ← evalOutput ch outputs b
      ensure .panic (c'.depth - 1 = proofs.length)
      ensure .panic (c'.depth ≤ c'.layers.length)
      let sizes := (List.range (c'.depth - 1)).map fun d => ((c'.layers.map fun l => l.bitSize).getD (c'.depth - d - 2) 0)
      let (ru, rv, fu, fv) ← verifyLayers ch proofs sizes resultU 0 1 0
      let x ← orPanic (evalValue inputs ru)
      let y ← orPanic (evalValue inputs rv)
      pure (decide (fu = x) && decide (fv = y)))
  simp only at hk ⊢
  rw [hk]

/-- One multiplication gate over two values. -/
def exMul : Circuit := ⟨2, [inputNew 1 1, ⟨1, 0, gatesOf [(1, 0, 1)]⟩]⟩

theorem exMul_new : Circuit.new 1 1 [[(1, 0, 1)]] = .ok exMul := by
  have hc : Nat.clog 2 (max 1 1) = 0 := by decide
  rw [new_eq 1 1 _ (by rw [hc]; simp [LegalLayers, Legal])]
  have : Nat.clog 2 (padTo 1) = 0 := by decide
  simp [exMul, layersOf, this]

theorem eqWeight_sum (r : List F) : ∑ i ∈ Finset.range (2 ^ r.length), eqWeight r i = 1 := by
  induction r with
  | nil => simp [eqWeight]
  | cons a r ih =>
    rw [List.length_cons, pow_succ', two_mul, Finset.sum_range_add]
    have h1 : ∀ i ∈ Finset.range (2 ^ r.length), eqWeight (a :: r) i = (1 - a) * eqWeight r i :=
      fun i hi => eqWeight_lo a r i (Finset.mem_range.1 hi)
    have h2 : ∀ i ∈ Finset.range (2 ^ r.length), eqWeight (a :: r) (2 ^ r.length + i) = a * eqWeight r i :=
      fun i hi => eqWeight_hi a r i (Finset.mem_range.1 hi)
    rw [Finset.sum_congr rfl h1, Finset.sum_congr rfl h2, ← Finset.mul_sum, ← Finset.mul_sum, ih]
    ring

theorem mle_ones (n : Nat) (r : List F) (h : r.length = n) : mle (List.replicate (2 ^ n) 1) r = 1 := by
  refine Eq.trans ?_ (eqWeight_sum r)
  unfold mle
  apply Finset.sum_congr rfl
  intro i hi
  have := Finset.mem_range.1 hi
  rw [h] at this
  simp [List.getD_eq_getElem?_getD, this]

/-- C59 fails, over every field of characteristic other than two and for every hash function: the circuit with
the single gate `x · y` has a proof that it maps `(1, 1)` to `0`. -/
theorem C59_violated (h2 : (2 : F) ≠ 0) (ch : Oracle F G) (hash : F) :
    ∃ c proofs, Circuit.new 1 1 [[(1, 0, 1)]] = .ok c ∧
      c.evaluate [(1 : F)] [1] = .ok [[1, 1], [1]] ∧ linearVerify ch c [0] [1, 1] hash proofs = .ok true := by
  have hb : (inputNew 1 1).bitSize = 1 := by
    rw [inputNew_bitSize]; have : Nat.clog 2 (max 1 1) = 0 := by decide
    rw [this]
  obtain ⟨proofs, hp⟩ := C59_forgery h2 ch exMul rfl (inputNew 1 1) ⟨1, 0, gatesOf [(1, 0, 1)]⟩
    [⟨1, 0, gatesOf [(1, 0, 1)]⟩] rfl rfl [0] [1, 1] (by simp) (by rw [hb]; simp)
    (fun r hr => by
      rw [hb] at hr
      have := mle_ones 1 r hr
      rw [show List.replicate (2 ^ 1) (1 : F) = [1, 1] from rfl] at this
      rw [this]; exact one_ne_zero) hash
  refine ⟨exMul, proofs, exMul_new, ?_, hp⟩
  obtain ⟨v0, e0, hv0, ev⟩ := C55_evaluates 1 1 _ exMul exMul_new [(1 : F)] [1] (by simp) (by simp)
  rw [C54_actual 1 1 _ _ (by simp) (by simp)] at e0
  have hc : Nat.clog 2 (max 1 1) = 0 := by decide
  rw [hc] at e0
  obtain rfl := Except.ok.inj e0
  rw [ev]
  simp [circuitValues, gateValue]

example : ∃ c proofs, Circuit.new 1 1 [[(1, 0, 1)]] = .ok c ∧ c.evaluate [(1 : F17)] [1] = .ok [[1, 1], [1]] ∧
    linearVerify (fun tr : Transcript F17 F17 => ((3 * tr.length + 5 : Nat) : F17)) c [0] [1, 1] 4 proofs = .ok true :=
  C59_violated two17 _ 4

/-- Multiplication and addition are the same to the verifier. -/
example (proofs : List (LayerProof F17)) (outputs inputs : List F17) :
    linearVerify (fun tr : Transcript F17 F17 => ((3 * tr.length + 5 : Nat) : F17)) exMul outputs inputs 1 proofs =
    linearVerify (fun tr : Transcript F17 F17 => ((3 * tr.length + 5 : Nat) : F17))
      ⟨2, [inputNew 1 1, ⟨1, 0, gatesOf [(0, 0, 1)]⟩]⟩ outputs inputs 1 proofs :=
  C59_gates _ _ _ rfl rfl _ _ _ _

end Zkp.Gkr
