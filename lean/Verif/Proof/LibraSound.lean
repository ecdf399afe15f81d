/- Soundness of Libra's linear GKR protocol, given true values of the wiring predicates. -/
import Verif.Props.Libra
import Verif.Proof.SumCheckSound

namespace Zkp.Gkr

open Zkp.Ml Zkp.Spartan Zkp.Sc Polynomial
open Zkp.Cp (bind_inv say_inv challenge_inv ensure_inv orPanic_inv pure_inv)

set_option linter.unusedSectionVars false
set_option linter.unusedSimpArgs false

variable {F : Type} [Field F] {G : Type} [AddCommGroup G] [Module F G] [DecidableEq F] [DecidableEq G]

/-- The multilinear extension of the wiring predicate of the gates with operator `op` at three points, the
first of which is the combination of `gu` and `gv` by `alpha` and `beta`. -/
def wireAt (op : Nat) (gates : List Gate) (gu gv ru rv : List F) (alpha beta : F) : F :=
  ∑ g ∈ Finset.range (2 ^ gu.length), ∑ x ∈ Finset.range (2 ^ ru.length), ∑ y ∈ Finset.range (2 ^ rv.length),
    wire op gates g x y * ((alpha * eqWeight gu g + beta * eqWeight gv g) * (eqWeight ru x * eqWeight rv y))

/-! ### Inversion of the verifier -/

theorem plainVerify_inv (ch : Oracle F G) (polys : List (List F)) (n i : Nat) (claim final : F) (rs : List F)
    (tr tr1 : Transcript F G) (h : plainVerify ch polys n i claim tr = .ok ((rs, final), tr1)) :
    Sync ch "poly" ((polys.drop i).take n) rs tr tr1 ∧ RoundsOk ((polys.drop i).take n) rs claim final ∧ rs.length = n := by
  induction n generalizing i claim rs tr with
  | zero =>
    unfold plainVerify at h
    obtain ⟨h1, rfl⟩ := pure_inv h
    obtain ⟨rfl, rfl⟩ : [] = rs ∧ claim = final := by simpa using h1
    exact ⟨rfl, rfl, rfl⟩
  | succ n ih =>
    unfold plainVerify at h
    obtain ⟨p, _, h1, h⟩ := bind_inv h
    obtain ⟨h1', rfl⟩ := orPanic_inv h1
    obtain ⟨_, _, h2, h⟩ := bind_inv h
    obtain ⟨h2', rfl⟩ := ensure_inv h2
    obtain ⟨_, _, h3, h⟩ := bind_inv h
    obtain rfl := say_inv h3
    obtain ⟨r, _, h4, h⟩ := bind_inv h
    obtain ⟨h4', rfl⟩ := challenge_inv h4
    obtain ⟨⟨rs', final'⟩, _, h5, h⟩ := bind_inv h
    obtain ⟨h6, rfl⟩ := pure_inv h
    obtain ⟨rfl, rfl⟩ : r :: rs' = rs ∧ final' = final := by simpa using h6
    obtain ⟨a, b, c⟩ := ih _ _ _ _ h5
    have hi : i < polys.length := by
      by_contra hc
      rw [List.getElem?_eq_none (by omega)] at h1'
      cases h1'
    have hd : polys.drop i = p :: polys.drop (i + 1) := by
      rw [List.drop_eq_getElem_cons hi]
      rw [List.getElem?_eq_getElem hi] at h1'
      rw [Option.some.inj h1']
    rw [hd, List.take_succ_cons]
    exact ⟨⟨h4'.symm, a⟩, ⟨by simpa using h2', b⟩, by simp [c]⟩

theorem verifyLayer_inv (ch : Oracle F G) (p : LayerProof F) (n : Nat) (claim : F) (ru rv : List F) (fu fv : F)
    (tr tr' : Transcript F G) (h : verifyLayer ch p n claim tr = .ok ((ru, rv, fu, fv), tr')) :
    ∃ fin1 tr1 fin2 tr2 v1 v2, Sync ch "poly" (p.one.polys.take n) ru tr tr1 ∧
      RoundsOk (p.one.polys.take n) ru claim fin1 ∧ ru.length = n ∧ p.one.values[0]? = some fu ∧
      Sync ch "poly" (p.two.polys.take n) rv (tr1 ++ [.frs "claim_final" p.one.values]) tr2 ∧
      RoundsOk (p.two.polys.take n) rv fin1 fin2 ∧ rv.length = n ∧ p.two.values[0]? = some fv ∧
      p.two.values[1]? = some v1 ∧ p.two.values[2]? = some v2 ∧ fin2 = v1 * fv * fu + v2 * fu + v2 * fv ∧
      tr' = tr2 ++ [.frs "claim_final" p.two.values] := by
  unfold verifyLayer at h
  obtain ⟨⟨ru', fin1⟩, tr1, h1, h⟩ := bind_inv h
  obtain ⟨_, _, h2, h⟩ := bind_inv h
  obtain rfl := say_inv h2
  obtain ⟨u0, _, h3, h⟩ := bind_inv h
  obtain ⟨h3', rfl⟩ := orPanic_inv h3
  obtain ⟨u1, _, h4, h⟩ := bind_inv h
  obtain ⟨h4', rfl⟩ := orPanic_inv h4
  obtain ⟨u2, _, h5, h⟩ := bind_inv h
  obtain ⟨h5', rfl⟩ := orPanic_inv h5
  obtain ⟨u3, _, h6, h⟩ := bind_inv h
  obtain ⟨h6', rfl⟩ := orPanic_inv h6
  obtain ⟨_, _, h7, h⟩ := bind_inv h
  obtain ⟨h7', rfl⟩ := ensure_inv h7
  obtain ⟨⟨rv', fin2⟩, tr2, h8, h⟩ := bind_inv h
  obtain ⟨_, _, h9, h⟩ := bind_inv h
  obtain rfl := say_inv h9
  obtain ⟨v0, _, g3, h⟩ := bind_inv h
  obtain ⟨g3', rfl⟩ := orPanic_inv g3
  obtain ⟨v1, _, g4, h⟩ := bind_inv h
  obtain ⟨g4', rfl⟩ := orPanic_inv g4
  obtain ⟨v2, _, g5, h⟩ := bind_inv h
  obtain ⟨g5', rfl⟩ := orPanic_inv g5
  obtain ⟨_, _, g6, h⟩ := bind_inv h
  obtain ⟨g6', rfl⟩ := ensure_inv g6
  obtain ⟨e, rfl⟩ := pure_inv h
  obtain ⟨rfl, rfl, rfl, rfl⟩ : ru' = ru ∧ rv' = rv ∧ u0 = fu ∧ v0 = fv := by simpa using e
  obtain ⟨a1, a2, a3⟩ := plainVerify_inv _ _ _ _ _ _ _ _ _ h1
  obtain ⟨b1, b2, b3⟩ := plainVerify_inv _ _ _ _ _ _ _ _ _ h8
  rw [List.drop_zero] at a1 a2 b1 b2
  exact ⟨fin1, tr1, fin2, tr2, v1, v2, a1, a2, a3, h3', b1, b2, b3, g3', g4', g5', by simpa using g6', rfl⟩

/-! ### The bad challenges -/

/-- The last list of scalars said. -/
def lastFrs (t : Transcript F G) : List F :=
  match t.getLast? with
  | some (.frs _ p) => p
  | _ => []

/-- The final values said so far. -/
def finalsOf (t : Transcript F G) : List (List F) :=
  t.filterMap fun m => match m with
    | .frs l x => if l = "claim_final" then some x else none
    | _ => none

/-- The tables of the first phase. -/
def tablesOne (x : List Gate × List F × Nat) (gu gv : List F) (alpha beta : F) : List (List F) :=
  match initPhaseOne gu gv x.1 x.2.1 x.2.2 alpha beta with
  | some (mul, add1, add2) => [x.2.1, mul, add1, add2]
  | none => []

/-- The tables of the second phase. -/
def tablesTwo (x : List Gate × List F × Nat) (gu gv ru : List F) (alpha beta : F) : List (List F) :=
  match initPhaseTwo gu gv ru x.1 x.2.1 x.2.2 alpha beta with
  | some (mul, add, _) => [x.2.1, mul, add]
  | none => []

/-- The bad values of the next challenge, when `vs` are the challenges since the first of the layers. -/
noncomputable def badLayers (d : Nat) : List (List Gate × List F × Nat) → List F → List F → F → F →
    Transcript F G → List F → Finset F
  | [], _, _, _, _, _, _ => ∅
  | x :: rest, gu, gv, alpha, beta, t, vs =>
    if vs.length < x.2.2 then badRound d libraOne (foldMany (tablesOne x gu gv alpha beta) vs) (lastFrs t)
    else if vs.length < 2 * x.2.2 then badRound d (libraTwo (mle x.2.1 (vs.take x.2.2)))
      (foldMany (tablesTwo x gu gv (vs.take x.2.2) alpha beta) (vs.drop x.2.2)) (lastFrs t)
    else if vs.length = 2 * x.2.2 then fewRoots 1 fun a => a = 0
    else if vs.length = 2 * x.2.2 + 1 then fewRoots 1 fun b =>
      vs.getD (2 * x.2.2) 0 * (((finalsOf t).reverse.getD 1 []).getD 0 0 - mle x.2.1 (vs.take x.2.2)) +
        b * (((finalsOf t).reverse.getD 0 []).getD 0 0 - mle x.2.1 ((vs.drop x.2.2).take x.2.2)) = 0
    else badLayers d rest (vs.take x.2.2) ((vs.drop x.2.2).take x.2.2) (vs.getD (2 * x.2.2) 0)
      (vs.getD (2 * x.2.2 + 1) 0) t (vs.drop (2 * x.2.2 + 2))

theorem badLayers_card (d : Nat) (hd : 1 ≤ d) (items : List (List Gate × List F × Nat)) (gu gv : List F) (alpha beta : F)
    (t : Transcript F G) (vs : List F) : (badLayers d items gu gv alpha beta t vs).card ≤ d := by
  induction items generalizing gu gv alpha beta vs with
  | nil => simp [badLayers]
  | cons x rest ih =>
    unfold badLayers
    split_ifs
    · exact fewRoots_card _ _
    · exact fewRoots_card _ _
    · exact (fewRoots_card _ _).trans hd
    · exact (fewRoots_card _ _).trans hd
    · exact ih _ _ _ _ _

theorem finalsOf_sync {ch : Oracle F G} {ps : List (List F)} {rs : List F} {a b : Transcript F G}
    (h : Sync ch "poly" ps rs a b) : finalsOf b = finalsOf a := by
  induction ps generalizing rs a with
  | nil => cases rs with
    | nil => obtain rfl := h; rfl
    | cons _ _ => exact absurd h id
  | cons p ps ih => cases rs with
    | nil => exact absurd h id
    | cons r rs => rw [ih h.2]; simp [finalsOf]

/-! ### One layer -/

theorem layer_sound {d : Nat} (hd : 2 ≤ d) (ch : Oracle F G) (p : LayerProof F) (n : Nat) (claim : F) (ru rv : List F)
    (fu fv : F) (tr tr' : Transcript F G) (hrun : verifyLayer ch p n claim tr = .ok ((ru, rv, fu, fv), tr'))
    (hp : ∀ q ∈ p.one.polys ++ p.two.polys, q.length ≤ d + 1)
    (raw : List (Nat × Nat × Nat)) (v : List F) (rest : List (List Gate × List F × Nat)) (gu gv : List F)
    (alpha beta : F) (h : gu.length = gv.length) (hv : v.length = 2 ^ n) (hk : raw.length ≤ 2 ^ gu.length)
    (hl : ∀ g ∈ raw, Legal (2 ^ n) g)
    (hw1 : p.two.values[1]? = some (wireAt 1 (gatesOf raw) gu gv ru rv alpha beta))
    (hw0 : p.two.values[2]? = some (wireAt 0 (gatesOf raw) gu gv ru rv alpha beta))
    (hne : claim ≠ alpha * mle (raw.map (gateValue v)) gu + beta * mle (raw.map (gateValue v)) gv) :
    Hit ch (fun t vs => badLayers d ((gatesOf raw, v, n) :: rest) gu gv alpha beta t (vs.drop (drawn ch tr).length))
        tr tr' ∨
      fu ≠ mle v ru ∨ fv ≠ mle v rv := by
  obtain ⟨fin1, tr1, fin2, tr2, v1, v2, s1, r1, n1, e1, s2, r2, n2, e2, e3, e4, e5, rfl⟩ :=
    verifyLayer_inv _ _ _ _ _ _ _ _ _ _ hrun
  rw [e3] at hw1
  rw [e4] at hw0
  obtain rfl := Option.some.inj hw1
  obtain rfl := Option.some.inj hw0
  have hg := gatesOf_ok raw (2 ^ gu.length) (2 ^ n) hk hl
  obtain ⟨mul1, add1, add2, i1, l1, l2, l3, _⟩ := C60_phase_one gu gv (gatesOf raw) v n alpha beta h hv hg
  obtain ⟨_, _, _, i1', hsum⟩ := C60_claim gu gv raw v n alpha beta h hv hk hl
  rw [i1] at i1'
  obtain ⟨rfl, rfl, rfl⟩ : _ ∧ _ ∧ _ := by simpa using i1'
  obtain ⟨mul, add, i2, m1, m2, _⟩ := C60_phase_two gu gv ru (gatesOf raw) v n alpha beta h hv n1 hg
  obtain ⟨_, _, _, _, _, f1, f2, f3⟩ := C60_reduction gu gv ru (gatesOf raw) v n alpha beta h hv n1 hg
  rw [i1] at f1
  obtain ⟨rfl, rfl, rfl⟩ : _ ∧ _ ∧ _ := by simpa using f1
  rw [i2] at f2
  obtain ⟨rfl, rfl⟩ : _ ∧ _ := by simpa using f2
  obtain ⟨_, _, g1, _, g2, g3⟩ := C60_operators gu gv ru rv (gatesOf raw) v n alpha beta h hv n1 n2 hg
  rw [i2] at g1
  obtain ⟨rfl, rfl⟩ : _ ∧ _ := by simpa using g1
  have w0 : wireAt 0 (gatesOf raw) gu gv ru rv alpha beta = mle add rv := by rw [g2]; unfold wireAt; rw [n1, n2]
  have w1 : wireAt 1 (gatesOf raw) gu gv ru rv alpha beta = mle mul rv := by rw [g3]; unfold wireAt; rw [n1, n2]
  have t1 : tablesOne (gatesOf raw, v, n) gu gv alpha beta = [v, mul1, add1, add2] := by simp only [tablesOne, i1]
  have t2 : tablesTwo (gatesOf raw, v, n) gu gv ru alpha beta = [v, mul, add] := by simp only [tablesTwo, i2]
  have k1 : TablesOk n [v, mul1, add1, add2] := ⟨by simp, by simp [hv, l1, l2, l3]⟩
  have k2 : TablesOk n [v, mul, add] := ⟨by simp, by simp [hv, m1, m2]⟩
  have hne1 : claim ≠ total libraOne [v, mul1, add1, add2] := by
    rw [← hsum] at hne
    rw [total, tableLen_eq k1]
    exact hne
  rcases rounds_sound libraOne_deg hd ch _ ru tr tr1 s1 claim fin1 r1
      (fun q hq => hp q (List.mem_append_left _ (List.mem_of_mem_take hq))) _ (n1.symm ▸ k1) hne1 with
    ⟨t, j, q, a0, a1, a2, a3, a4⟩ | hfin
  · left
    refine ⟨t ++ [.frs "poly" q], "challenge_nextround", a0.trans (List.prefix_append _ _), ?_, ?_⟩
    · refine a1.trans ?_
      refine List.IsPrefix.trans ?_ (List.prefix_append _ _)
      exact (List.prefix_append _ _).trans (sync_prefix s2)
    · beta_reduce
      rw [drawn_frs, a3, List.drop_left]
      unfold badLayers
      rw [if_pos (show (List.take j ru).length < n by simp; omega), t1]
      simpa [lastFrs] using a4
  · have hne2 : fin1 ≠ total (libraTwo (mle v ru)) [v, mul, add] := by
      rw [total, tableLen_eq k2]
      intro hc
      apply hfin
      rw [hc]
      exact f3.symm
    rcases rounds_sound (libraTwo_deg (mle v ru)) hd ch _ rv _ tr2 s2 fin1 fin2 r2
        (fun q hq => hp q (List.mem_append_right _ (List.mem_of_mem_take hq))) _ (n2.symm ▸ k2) hne2 with
      ⟨t, j, q, a0, a1, a2, a3, a4⟩ | hfin
    · left
      refine ⟨t ++ [.frs "poly" q], "challenge_nextround",
        ((sync_prefix s1).trans (List.prefix_append _ _)).trans (a0.trans (List.prefix_append _ _)), a1.trans (List.prefix_append _ _), ?_⟩
      beta_reduce
      rw [drawn_frs, a3, drawn_frs, sync_drawn s1, List.append_assoc, List.drop_left]
      unfold badLayers
      rw [if_neg (show ¬ (ru ++ List.take j rv).length < n by simp; omega),
        if_pos (show (ru ++ List.take j rv).length < 2 * n by simp; omega)]
      simp only [← n1, List.take_left, List.drop_left]
      rw [n1, t2]
      simpa [lastFrs] using a4
    · right
      by_contra hc
      push Not at hc
      apply hfin
      rw [e5, w0, w1, hc.1, hc.2]
      rfl

theorem layer_after (ch : Oracle F G) (p : LayerProof F) (n : Nat) (claim : F) (ru rv : List F)
    (fu fv : F) (tr tr' : Transcript F G) (hrun : verifyLayer ch p n claim tr = .ok ((ru, rv, fu, fv), tr')) :
    drawn ch tr' = drawn ch tr ++ (ru ++ rv) ∧ finalsOf tr' = finalsOf tr ++ [p.one.values, p.two.values] ∧
      ru.length = n ∧ rv.length = n ∧ p.one.values.getD 0 0 = fu ∧ p.two.values.getD 0 0 = fv ∧ tr <+: tr' := by
  obtain ⟨fin1, tr1, fin2, tr2, v1, v2, s1, r1, n1, e1, s2, r2, n2, e2, e3, e4, e5, rfl⟩ :=
    verifyLayer_inv _ _ _ _ _ _ _ _ _ _ hrun
  refine ⟨?_, ?_, n1, n2, by simp [List.getD_eq_getElem?_getD, e1], by simp [List.getD_eq_getElem?_getD, e2], ?_⟩
  · rw [drawn_frs, sync_drawn s2, drawn_frs, sync_drawn s1, List.append_assoc]
  · have a1 := finalsOf_sync s1
    have a2 := finalsOf_sync s2
    have : ∀ (t : Transcript F G) x, finalsOf (t ++ [.frs "claim_final" x]) = finalsOf t ++ [x] := by
      intro t x; simp [finalsOf]
    rw [this, a2, this, a1, List.append_assoc]
    rfl
  · exact ((sync_prefix s1).trans (List.prefix_append _ _)).trans ((sync_prefix s2).trans (List.prefix_append _ _))

/-! ### All layers -/

/-- The layers from `top` down to `bottom`: each holds, up to trailing zeros, the values of its gates on the
one below, which is a full hypercube. -/
def Wires : List F → List (List Gate × List F × Nat) → List F → Prop
  | top, [], bottom => top = bottom
  | top, x :: rest, bottom => (∃ raw k, x.1 = gatesOf raw ∧ x.2.1.length = 2 ^ x.2.2 ∧
      (∀ g ∈ raw, Legal (2 ^ x.2.2) g) ∧ top = raw.map (gateValue x.2.1) ++ List.replicate k 0) ∧ Wires x.2.1 rest bottom

/-- In a run of the verifier over the layers, the values that a proof gives for the wiring predicates are
true: the second and the third of the final values of the second phase are the multilinear extensions of the
multiplication and of the addition predicate at the points of the run. -/
def WiringTrue (ch : Oracle F G) : List (List Gate × Nat) → List (LayerProof F) → List F → List F → F → F → F → F →
    Transcript F G → Prop
  | (gates, n) :: gs, p :: ps, gu, gv, resultU, resultV, alpha, beta, tr =>
    ∀ ru rv fu fv tr', verifyLayer ch p n (alpha * resultU + beta * resultV) tr = .ok ((ru, rv, fu, fv), tr') →
      p.two.values[1]? = some (wireAt 1 gates gu gv ru rv alpha beta) ∧
      p.two.values[2]? = some (wireAt 0 gates gu gv ru rv alpha beta) ∧
      WiringTrue ch gs ps ru rv fu fv (ch (tr' ++ [.chal "challenge_alpha"]))
        (ch (tr' ++ [.chal "challenge_alpha"] ++ [.chal "challenge_beta"]))
        (tr' ++ [.chal "challenge_alpha"] ++ [.chal "challenge_beta"])
  | _, _, _, _, _, _, _, _, _ => True

theorem mle_padded (v : List F) (k : Nat) (r : List F) : mle (v ++ List.replicate k 0) r = mle v r := by
  apply mle_congr
  intro i _
  by_cases hv : i < v.length
  · rw [List.getD_append _ _ _ _ hv]
  · rw [List.getD_append_right _ _ _ _ (by omega), List.getD_eq_default v 0 (by omega), replicate_getD]

theorem layers_after (ch : Oracle F G) (items : List (List Gate × List F × Nat)) (hi : items ≠ [])
    (proofs : List (LayerProof F)) (top bottom : List F) (alpha beta resultU resultV : F)
    (hw : Wires top items bottom) (hlen : proofs.length = items.length)
    (ru rv : List F) (fu fv : F) (tr tr' : Transcript F G)
    (hrun : verifyLayers ch proofs (items.map (·.2.2)) resultU resultV alpha beta tr = .ok ((ru, rv, fu, fv), tr')) :
    bottom.length = 2 ^ ru.length ∧ bottom.length = 2 ^ rv.length ∧ tr <+: tr' := by
  induction items generalizing proofs top alpha beta resultU resultV tr with
  | nil => exact absurd rfl hi
  | cons x rest ih =>
    obtain ⟨gates, v, n⟩ := x
    obtain ⟨⟨raw, k, hg, hv, hl, htop⟩, hrest⟩ := hw
    simp only at hg hv hl htop hrest
    cases proofs with
    | nil => simp at hlen
    | cons p ps =>
      rw [List.map_cons] at hrun
      unfold verifyLayers at hrun
      obtain ⟨⟨ru1, rv1, fu1, fv1⟩, tr1, h1, hrun⟩ := bind_inv hrun
      obtain ⟨q1, q2, q3, q4, q5, q6, q7⟩ := layer_after _ _ _ _ _ _ _ _ _ _ h1
      replace q3 : ru1.length = n := q3
      replace q4 : rv1.length = n := q4
      cases ps with
      | nil =>
        obtain ⟨e, rfl⟩ := pure_inv hrun
        obtain ⟨rfl, rfl, rfl, rfl⟩ : ru1 = ru ∧ rv1 = rv ∧ fu1 = fu ∧ fv1 = fv := by simpa using e
        cases rest with
        | cons y ys => simp at hlen
        | nil =>
          obtain rfl := hrest
          exact ⟨by rw [q3, hv], by rw [q4, hv], q7⟩
      | cons p' ps =>
        obtain ⟨al, _, h2, hrun⟩ := bind_inv hrun
        obtain ⟨rfl, rfl⟩ := challenge_inv h2
        obtain ⟨be, _, h3, hrun⟩ := bind_inv hrun
        obtain ⟨rfl, rfl⟩ := challenge_inv h3
        have hrest' : rest ≠ [] := by rintro rfl; simp at hlen
        obtain ⟨b1, b2, b3⟩ := ih hrest' (p' :: ps) v _ _ fu1 fv1 hrest (by simpa using hlen) _ hrun
        refine ⟨b1, b2, q7.trans (List.IsPrefix.trans ?_ b3)⟩
        rw [List.append_assoc]
        exact List.prefix_append _ _

theorem layers_sound {d : Nat} (hd : 2 ≤ d) (ch : Oracle F G) (items : List (List Gate × List F × Nat)) (hi : items ≠ [])
    (proofs : List (LayerProof F)) (top bottom gu gv : List F) (alpha beta resultU resultV : F)
    (h : gu.length = gv.length) (hk : top.length ≤ 2 ^ gu.length) (hw : Wires top items bottom)
    (hlen : proofs.length = items.length) (hp : ∀ p ∈ proofs, ∀ q ∈ p.one.polys ++ p.two.polys, q.length ≤ d + 1)
    (ru rv : List F) (fu fv : F) (tr tr' : Transcript F G)
    (hrun : verifyLayers ch proofs (items.map (·.2.2)) resultU resultV alpha beta tr = .ok ((ru, rv, fu, fv), tr'))
    (ht : WiringTrue ch (items.map fun x => (x.1, x.2.2)) proofs gu gv resultU resultV alpha beta tr)
    (hne : alpha * resultU + beta * resultV ≠ alpha * mle top gu + beta * mle top gv) :
    Hit ch (fun t vs => badLayers d items gu gv alpha beta t (vs.drop (drawn ch tr).length)) tr tr' ∨
      fu ≠ mle bottom ru ∨ fv ≠ mle bottom rv := by
  induction items generalizing proofs top gu gv alpha beta resultU resultV tr with
  | nil => exact absurd rfl hi
  | cons x rest ih =>
    obtain ⟨gates, v, n⟩ := x
    obtain ⟨⟨raw, k, hg, hv, hl, htop⟩, hrest⟩ := hw
    simp only at hg hv hl htop hrest
    subst hg
    cases proofs with
    | nil => simp at hlen
    | cons p ps =>
      rw [List.map_cons] at hrun
      unfold verifyLayers at hrun
      obtain ⟨⟨ru1, rv1, fu1, fv1⟩, tr1, h1, hrun⟩ := bind_inv hrun
      obtain ⟨w1, w0, ht'⟩ := ht _ _ _ _ _ h1
      have hk' : raw.length ≤ 2 ^ gu.length := by rw [htop] at hk; simp at hk; omega
      rw [htop, mle_padded, mle_padded] at hne
      have hs := layer_sound hd ch p n _ ru1 rv1 fu1 fv1 tr tr1 h1 (hp p (by simp)) raw v rest gu gv alpha beta h hv hk' hl
        w1 w0 hne
      obtain ⟨q1, q2, q3, q4, q5, q6, q7⟩ := layer_after _ _ _ _ _ _ _ _ _ _ h1
      replace q3 : ru1.length = n := q3
      replace q4 : rv1.length = n := q4
      cases ps with
      | nil =>
        obtain ⟨e, rfl⟩ := pure_inv hrun
        obtain ⟨rfl, rfl, rfl, rfl⟩ : ru1 = ru ∧ rv1 = rv ∧ fu1 = fu ∧ fv1 = fv := by simpa using e
        cases rest with
        | cons y ys => simp at hlen
        | nil =>
          obtain rfl := hrest
          exact hs
      | cons p' ps =>
        obtain ⟨al, _, h2, hrun⟩ := bind_inv hrun
        obtain ⟨rfl, rfl⟩ := challenge_inv h2
        obtain ⟨be, _, h3, hrun⟩ := bind_inv hrun
        obtain ⟨rfl, rfl⟩ := challenge_inv h3
        have hrest' : rest ≠ [] := by rintro rfl; simp at hlen
        obtain ⟨ta, hta⟩ : ∃ ta, ta = tr1 ++ [Msg.chal "challenge_alpha"] := ⟨_, rfl⟩
        obtain ⟨tb, htb⟩ : ∃ tb, tb = ta ++ [Msg.chal "challenge_beta"] := ⟨_, rfl⟩
        obtain ⟨al, hal⟩ : ∃ al, al = ch ta := ⟨_, rfl⟩
        obtain ⟨be, hbe⟩ : ∃ be, be = ch tb := ⟨_, rfl⟩
        rw [← hta, ← htb, ← hal, ← hbe] at ht' hrun
        have pc : tb <+: tr' := (layers_after ch rest hrest' (p' :: ps) v bottom al be fu1 fv1 hrest (by simpa using hlen)
          ru rv fu fv tb tr' hrun).2.2
        have ih := ih hrest' (p' :: ps) v ru1 rv1 al be fu1 fv1 (by rw [q3, q4]) (by rw [q3, hv]) hrest
          (by simpa using hlen) (fun q hq => hp q (List.mem_cons_of_mem _ hq)) tb hrun ht'
        have da : drawn ch ta = drawn ch tr ++ (ru1 ++ rv1 ++ [al]) := by
          rw [hta, drawn_chal, ← hta, ← hal, q1, List.append_assoc]
        have db : drawn ch tb = drawn ch tr ++ (ru1 ++ rv1 ++ [al] ++ [be]) := by
          rw [htb, drawn_chal, ← htb, ← hbe, da, List.append_assoc]
        have lab : (ru1 ++ rv1).length = 2 * n := by rw [List.length_append, q3, q4]; omega
        have pa : tr1 <+: ta := hta ▸ List.prefix_append _ _
        have pb : ta <+: tb := htb ▸ List.prefix_append _ _
        by_cases hc : al * fu1 + be * fv1 = al * mle v ru1 + be * mle v rv1
        · rcases hs with hs | hs
          · exact Or.inl (hs.mono List.prefix_rfl (pa.trans (pb.trans pc)))
          · left
            by_cases hv1 : fv1 = mle v rv1
            · have hu1 : fu1 ≠ mle v ru1 := by
                rcases hs with hs | hs
                · exact hs
                · exact absurd hv1 hs
              have ha : al = 0 := by
                have : al * (fu1 - mle v ru1) = 0 := by rw [hv1] at hc; linear_combination hc
                rcases mul_eq_zero.1 this with h | h
                · exact h
                · exact absurd (sub_eq_zero.1 h) hu1
              refine ⟨tr1, "challenge_alpha", q7, by rw [← hta]; exact pb.trans pc, ?_⟩
              beta_reduce
              rw [q1, List.drop_left, ← hta, ← hal]
              unfold badLayers
              simp only [lab]
              rw [if_neg (show ¬ 2 * n < n by omega), if_neg (show ¬ 2 * n < 2 * n by omega), if_pos trivial]
              exact fewRoots_mem X X_ne_zero natDegree_X.le (fun x hx => by rw [eval_X, hx]) ha
            · refine ⟨ta, "challenge_beta", q7.trans pa, by rw [← htb]; exact pc, ?_⟩
              beta_reduce
              rw [da, List.drop_left, ← htb, ← hbe]
              have lab1 : (ru1 ++ rv1 ++ [al]).length = 2 * n + 1 := by rw [List.length_append, lab]; rfl
              unfold badLayers
              simp only [lab1]
              rw [if_neg (show ¬ 2 * n + 1 < n by omega), if_neg (show ¬ 2 * n + 1 < 2 * n by omega),
                if_neg (show ¬ 2 * n + 1 = 2 * n by omega), if_pos trivial]
              have g1 : (ru1 ++ rv1 ++ [al]).getD (2 * n) 0 = al := by
                rw [← lab, List.getD_append_right _ _ _ _ le_rfl, Nat.sub_self]; rfl
              have g2 : (ru1 ++ rv1 ++ [al]).take n = ru1 := by
                rw [List.append_assoc, ← q3, List.take_left]
              have g3 : ((ru1 ++ rv1 ++ [al]).drop n).take n = rv1 := by
                rw [List.append_assoc, ← q3, List.drop_left, q3, ← q4, List.take_left]
              have g4 : finalsOf ta = finalsOf tr ++ [p.one.values, p.two.values] := by
                rw [hta, ← q2]; simp [finalsOf]
              rw [g1, g2, g3, g4]
              have g5 : (finalsOf tr ++ [p.one.values, p.two.values]).reverse.getD 1 [] = p.one.values := by simp
              have g6 : (finalsOf tr ++ [p.one.values, p.two.values]).reverse.getD 0 [] = p.two.values := by simp
              rw [g5, g6, q5, q6]
              refine fewRoots_mem (C (al * (fu1 - mle v ru1)) + C (fv1 - mle v rv1) * X) ?_ (by compute_degree) ?_ ?_
              · intro h0
                have := congrArg (fun q => q.coeff 1) h0
                simp [coeff_C] at this
                exact hv1 (sub_eq_zero.1 this)
              · intro b hb
                rw [← hb]; simp; ring
              · linear_combination hc
        · rcases ih hc with hb | hb
          · left
            obtain ⟨t, l, c1, c2, c3⟩ := hb
            refine ⟨t, l, q7.trans (pa.trans (pb.trans c1)), c2, ?_⟩
            obtain ⟨w, hw⟩ := drawn_prefix ch c1
            beta_reduce at c3 ⊢
            rw [← hw, List.drop_left] at c3
            rw [← hw, db, List.append_assoc, List.drop_left]
            have lab2 : (ru1 ++ rv1 ++ [al] ++ [be] ++ w).length = 2 * n + 2 + w.length := by
              simp only [List.length_append, q3, q4, List.length_singleton]; omega
            unfold badLayers
            simp only [lab2]
            rw [if_neg (show ¬ 2 * n + 2 + w.length < n by omega), if_neg (show ¬ 2 * n + 2 + w.length < 2 * n by omega),
                if_neg (show ¬ 2 * n + 2 + w.length = 2 * n by omega), if_neg (show ¬ 2 * n + 2 + w.length = 2 * n + 1 by omega)]
            have g1 : (ru1 ++ rv1 ++ [al] ++ [be] ++ w).getD (2 * n) 0 = al := by
              rw [List.append_assoc, List.append_assoc, ← lab, List.getD_append_right _ _ _ _ le_rfl, Nat.sub_self]; rfl
            have g1' : (ru1 ++ rv1 ++ [al] ++ [be] ++ w).getD (2 * n + 1) 0 = be := by
              rw [List.append_assoc, List.append_assoc, ← lab, List.getD_append_right _ _ _ _ (Nat.le_succ _)]
              simp
            have g2 : (ru1 ++ rv1 ++ [al] ++ [be] ++ w).take n = ru1 := by
              rw [List.append_assoc, List.append_assoc, List.append_assoc, ← q3, List.take_left]
            have g3 : ((ru1 ++ rv1 ++ [al] ++ [be] ++ w).drop n).take n = rv1 := by
              rw [List.append_assoc, List.append_assoc, List.append_assoc, ← q3, List.drop_left, q3, ← q4, List.take_left]
            have g4 : (ru1 ++ rv1 ++ [al] ++ [be] ++ w).drop (2 * n + 2) = w := by
              rw [show 2 * n + 2 = (ru1 ++ rv1 ++ [al] ++ [be]).length by simp only [List.length_append, q3, q4, List.length_singleton]; omega,
                List.drop_left]
            rw [g1, g1', g2, g3, g4]
            exact c3
          · right; exact hb

end Zkp.Gkr
