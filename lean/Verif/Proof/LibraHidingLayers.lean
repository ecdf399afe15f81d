/- All layers and the input of Libra's hiding prover, with challenges fixed beforehand. -/
import Verif.Proof.LibraHiding
import Verif.Props.LibraZk

namespace Zkp.Lz

open Zkp.Ml Zkp.Spartan Zkp.Sc Zkp.Gkr Zkp.Cp Zkp.Hx

set_option linter.unusedSectionVars false
set_option linter.unusedSimpArgs false

variable {F : Type} [Field F] {G : Type} [AddCommGroup G] [Module F G] [DecidableEq F] [DecidableEq G]

theorem gatesOf_inj {a b : List (Nat × Nat × Nat)} (h : gatesOf a = gatesOf b) : a = b := by
  have key : ∀ a : List (Nat × Nat × Nat), (gatesOf a).map (fun g => (g.op, g.left, g.right)) = a := by
    intro a
    unfold gatesOf
    rw [List.map_map]
    exact (List.map_congr_left (g := Prod.fst) fun x _ => rfl).trans (List.zipIdx_map_fst 0 a)
  rw [← key a, h, key b]

theorem layersProve_shift (ch : Oracle F G) (params : Params G) (rands : Nat → LayerRand F)
    (items : List (List Gate × List F × Nat)) : ∀ (i : Nat) (gu gv : List F) (a b c d e : F),
      zkLayersProve ch params rands items (i + 1) gu gv a b c d e =
        zkLayersProve ch params (fun j => rands (j + 1)) items i gu gv a b c d e := by
  induction items with
  | nil => intros; rfl
  | cons x rest ih =>
    intro i gu gv a b c d e
    obtain ⟨gates, v, n⟩ := x
    cases rest with
    | nil => rfl
    | cons y rest =>
      unfold zkLayersProve
      simp only [ih]

/-- The draws of the layers as the functions of the model. -/
abbrev fns (L : List (LayerDraw F)) : Nat → LayerRand F := fun i => (L.getD i noLayer).rand

theorem fns_tail (d : LayerDraw F) (L : List (LayerDraw F)) : (fun j => fns (d :: L) (j + 1)) = fns L := rfl

theorem layers_last {ch : Oracle F G} (params : Params G) (gates : List Gate) (v : List F) (n : Nat)
    (gu gv : List F) (alpha beta rU rV blind : F) (d : LayerDraw F) (L : List (LayerDraw F)) (N N1 : Nat) (p : ZkLayer F G)
    (ru rv : List F) (fu e0 f0 : F)
    (Y : Yields (zkLayerProve ch params gates v n gu gv alpha beta (alpha * rU + beta * rV) blind d.rand) N
      (p, ru, rv, fu, e0, f0) N1) :
    Yields (zkLayersProve ch params (fns (d :: L)) [(gates, v, n)] 0 gu gv rU rV alpha beta blind) N
      ([p], ⟨ru, rv, e0, f0, d.x, d.y⟩) N1 := by
  unfold zkLayersProve
  exact Y.bind Yields.pure

theorem layers_step {ch : Oracle F G} (ho : Oblivious ch) (params : Params G) (gates : List Gate) (v : List F) (n : Nat)
    (y : List Gate × List F × Nat) (rest : List (List Gate × List F × Nat))
    (gu gv : List F) (alpha beta rU rV blind : F) (d : LayerDraw F) (L : List (LayerDraw F)) (N N1 N2 : Nat) (p : ZkLayer F G)
    (ps : List (ZkLayer F G)) (fin : Final F) (ru rv : List F) (fu e0 f0 : F)
    (Y : Yields (zkLayerProve ch params gates v n gu gv alpha beta (alpha * rU + beta * rV) blind d.rand) N
      (p, ru, rv, fu, e0, f0) N1)
    (Z : Yields (zkLayersProve ch params (fns L) (y :: rest) 0 ru rv fu f0 (chalAt ch (N1 + 1)) (chalAt ch (N1 + 2))
      (chalAt ch (N1 + 1) * d.x + chalAt ch (N1 + 2) * d.y)) (N1 + 2) (ps, fin) N2) :
    Yields (zkLayersProve ch params (fns (d :: L)) ((gates, v, n) :: y :: rest) 0 gu gv rU rV alpha beta blind) N
      (p :: ps, fin) N2 := by
  unfold zkLayersProve
  refine Y.bind ((Yields.challenge ho).bind ((Yields.challenge ho).bind ?_))
  rw [layersProve_shift, fns_tail]
  exact Z.bind Yields.pure

theorem layers_same (h2 : (2 : F) ≠ 0) {ch : Oracle F G} (ho : Oblivious ch) (params : Params G) (hs1 : Spans F params.gen1.h)
    (hs3 : Spans F params.gen3.h) (items : List (List Gate × List F × Nat)) (hne : items ≠ []) (hwide : Wide items) :
    ∀ (items' : List (List Gate × List F × Nat)) (_ : items'.map (fun x => (x.1, x.2.2)) = items.map fun x => (x.1, x.2.2))
      (top top' bottom bottom' gu gv : List F) (alpha beta rU rV blind rU' rV' blind' : F) (_ : gu.length = gv.length)
      (_ : top.length ≤ 2 ^ gu.length) (_ : Chain top items bottom) (_ : Chain top' items' bottom')
      (_ : alpha * rU + beta * rV = alpha * mle top gu + beta * mle top gv)
      (_ : alpha * rU' + beta * rV' = alpha * mle top' gu + beta * mle top' gv)
      (_ : commitVec params.gen1.generators [alpha * rU + beta * rV] params.gen1.h blind =
        commitVec params.gen1.generators [alpha * rU' + beta * rV'] params.gen1.h blind')
      (L : List (LayerDraw F)) (_ : List.Forall₂ LayerDraw.Ok L (items.map fun x => x.2.2)) (N : Nat),
      ∃ (L' : List (LayerDraw F)) (ps : List (ZkLayer F G)) (ru rv : List F) (bx by' bx' by'' : F) (N' : Nat),
        List.Forall₂ LayerDraw.Ok L' (items.map fun x => x.2.2) ∧ bottom.length = 2 ^ ru.length ∧ ru.length = rv.length ∧
        commitVec params.gen1.generators [mle bottom ru] params.gen1.h bx =
          commitVec params.gen1.generators [mle bottom' ru] params.gen1.h bx' ∧
        commitVec params.gen1.generators [mle bottom rv] params.gen1.h by' =
          commitVec params.gen1.generators [mle bottom' rv] params.gen1.h by'' ∧
        Yields (zkLayersProve ch params (fns L) items 0 gu gv rU rV alpha beta blind) N
          (ps, ⟨ru, rv, mle bottom ru, mle bottom rv, bx, by'⟩) N' ∧
        Yields (zkLayersProve ch params (fns L') items' 0 gu gv rU' rV' alpha beta blind') N
          (ps, ⟨ru, rv, mle bottom' ru, mle bottom' rv, bx', by''⟩) N' := by
  induction items with
  | nil => exact absurd rfl hne
  | cons x rest ih =>
    intro items' hi top top' bottom bottom' gu gv alpha beta rU rV blind rU' rV' blind' h hk hch hch' hc hc' he L hL N
    obtain ⟨gates, v, n⟩ := x
    match items', hi with
    | (gates', v', n') :: rest', hi =>
    rw [List.map_cons, List.map_cons] at hi
    obtain ⟨hi1, hi2⟩ := List.cons.inj hi
    obtain ⟨rfl, rfl⟩ : gates' = gates ∧ n' = n := by simpa using hi1
    obtain ⟨⟨raw, rfl, hv, hl, rfl⟩, hrest⟩ := hch
    obtain ⟨⟨raw', hraw, hv', hl', rfl⟩, hrest'⟩ := hch'
    obtain rfl := gatesOf_inj hraw
    simp only at hv hl hrest hv' hrest'
    have hn : 1 ≤ n' := hwide (gatesOf raw, v, n') List.mem_cons_self
    rw [List.map_cons, List.forall₂_cons_right_iff] at hL
    obtain ⟨d, L, hd, hL, rfl⟩ := hL
    simp only at hd
    obtain ⟨d', p, hd', ex, ey, Y, Y'⟩ := layer_same h2 ho params hs1 hs3 raw v v' n' hn gu gv alpha beta _ blind _ blind' h hv hv'
      (by simpa using hk) hl hc hc' he d hd N _ _ rfl rfl
    have lu := roundChals_length ch N n'
    have lv := roundChals_length ch (N + 11 * n' + 1) n'
    cases rest with
    | nil =>
      obtain rfl : rest' = [] := by simpa using hi2
      obtain rfl := hrest
      obtain rfl := hrest'
      cases hL
      exact ⟨[d'], [p], _, _, d.x, d.y, d'.x, d'.y, _, .cons hd' .nil, by rw [hv, lu], lu.trans lv.symm, ex, ey,
        layers_last params _ _ _ _ _ _ _ _ _ _ _ _ _ _ _ _ _ _ _ _ Y, layers_last params _ _ _ _ _ _ _ _ _ _ _ _ _ _ _ _ _ _ _ _ Y'⟩
    | cons y rest =>
      match rest', hi2 with
      | y' :: rest', hi2 =>
      obtain ⟨L', ps, ru', rv', bx, by', bx', by'', N', b1, b2, b3, b4, b5, Z, Z'⟩ := ih (by simp) (fun x hx => hwide x (by simp [hx]))
        (y' :: rest') hi2 v v' bottom bottom' (roundChals ch N n') (roundChals ch (N + 11 * n' + 1) n')
        (chalAt ch (N + 22 * n' + 13 + 1)) (chalAt ch (N + 22 * n' + 13 + 2)) (mle v (roundChals ch N n'))
        (mle v (roundChals ch (N + 11 * n' + 1) n'))
        (chalAt ch (N + 22 * n' + 13 + 1) * d.x + chalAt ch (N + 22 * n' + 13 + 2) * d.y)
        (mle v' (roundChals ch N n')) (mle v' (roundChals ch (N + 11 * n' + 1) n'))
        (chalAt ch (N + 22 * n' + 13 + 1) * d'.x + chalAt ch (N + 22 * n' + 13 + 2) * d'.y)
        (lu.trans lv.symm) (by rw [hv, lu]) hrest hrest' rfl rfl
        (by rw [← commitVec_one_lin, ← commitVec_one_lin, ex, ey]) L hL (N + 22 * n' + 13 + 2)
      exact ⟨d' :: L', p :: ps, ru', rv', bx, by', bx', by'', N', .cons hd' b1, b2, b3, b4, b5,
        layers_step ho params _ _ _ _ _ _ _ _ _ _ _ _ _ _ _ _ _ _ _ _ _ _ _ _ _ Y Z,
        layers_step ho params _ _ _ _ _ _ _ _ _ _ _ _ _ _ _ _ _ _ _ _ _ _ _ _ _ Y' Z'⟩

theorem layers_inj (h2 : (2 : F) ≠ 0) {ch : Oracle F G} (ho : Oblivious ch) (params : Params G) (hs1 : Spans F params.gen1.h)
    (hs3 : Spans F params.gen3.h) (items : List (List Gate × List F × Nat)) (hne : items ≠ []) (hwide : Wide items) :
    ∀ (top bottom gu gv : List F) (alpha beta rU rV blind : F) (_ : gu.length = gv.length)
      (_ : top.length ≤ 2 ^ gu.length) (_ : Chain top items bottom)
      (_ : alpha * rU + beta * rV = alpha * mle top gu + beta * mle top gv)
      (L L' : List (LayerDraw F)) (_ : List.Forall₂ LayerDraw.Ok L (items.map fun x => x.2.2))
      (_ : List.Forall₂ LayerDraw.Ok L' (items.map fun x => x.2.2)) (N n1 n2 : Nat) (ps : List (ZkLayer F G)) (x y : Final F)
      (_ : Yields (zkLayersProve ch params (fns L) items 0 gu gv rU rV alpha beta blind) N (ps, x) n1)
      (_ : Yields (zkLayersProve ch params (fns L') items 0 gu gv rU rV alpha beta blind) N (ps, y) n2), L = L' := by
  induction items with
  | nil => exact absurd rfl hne
  | cons x rest ih =>
    intro top bottom gu gv alpha beta rU rV blind h hk hch hc L L' hL hL' N n1 n2 ps fx fy H H'
    obtain ⟨gates, v, n⟩ := x
    obtain ⟨⟨raw, rfl, hv, hl, rfl⟩, hrest⟩ := hch
    simp only at hv hl hrest
    have hn : 1 ≤ n := hwide (gatesOf raw, v, n) List.mem_cons_self
    rw [List.map_cons, List.forall₂_cons_right_iff] at hL hL'
    obtain ⟨d, L, hd, hL, rfl⟩ := hL
    obtain ⟨d', L', hd', hL', rfl⟩ := hL'
    simp only at hd hd'
    have lu := roundChals_length ch N n
    have lv := roundChals_length ch (N + 11 * n + 1) n
    obtain ⟨-, p, -, -, -, Y, -⟩ := layer_same h2 ho params hs1 hs3 raw v v n hn gu gv alpha beta _ blind _ blind h hv hv
      (by simpa using hk) hl hc hc rfl d hd N _ _ rfl rfl
    obtain ⟨-, p', -, -, -, Y', -⟩ := layer_same h2 ho params hs1 hs3 raw v v n hn gu gv alpha beta _ blind _ blind h hv hv
      (by simpa using hk) hl hc hc rfl d' hd' N _ _ rfl rfl
    have fin : p = p' → d = d' := by
      rintro rfl
      exact layer_inj h2 ho params hs1 hs3 raw v n hn gu gv alpha beta _ blind h hv (by simpa using hk) hl hc d d' hd hd' N _ _ p _ _
        Y Y'
    cases rest with
    | nil =>
      cases hL; cases hL'
      have A := layers_last params _ _ _ _ _ _ _ _ _ _ d [] _ _ _ _ _ _ _ _ Y
      have A' := layers_last params _ _ _ _ _ _ _ _ _ _ d' [] _ _ _ _ _ _ _ _ Y'
      have e := ((Prod.mk.inj (A.unique H).1).1).trans ((Prod.mk.inj (A'.unique H').1).1).symm
      rw [fin (by simpa using e)]
    | cons y rest =>
      have sub : ∀ (d : LayerDraw F) (L : List (LayerDraw F)),
          List.Forall₂ LayerDraw.Ok L ((y :: rest).map fun x => x.2.2) → ∃ (ps : List (ZkLayer F G)) (fin : Final F) (N' : Nat),
          Yields (zkLayersProve ch params (fns L) (y :: rest) 0 (roundChals ch N n) (roundChals ch (N + 11 * n + 1) n)
            (mle v (roundChals ch N n)) (mle v (roundChals ch (N + 11 * n + 1) n))
            (chalAt ch (N + 22 * n + 13 + 1)) (chalAt ch (N + 22 * n + 13 + 2))
            (chalAt ch (N + 22 * n + 13 + 1) * d.x + chalAt ch (N + 22 * n + 13 + 2) * d.y)) (N + 22 * n + 13 + 2) (ps, fin) N' := by
        intro d L hL
        obtain ⟨-, ps, _, _, _, _, -, -, N', -, -, -, -, -, Z, -⟩ := layers_same h2 ho params hs1 hs3 (y :: rest) (by simp)
          (fun x hx => hwide x (by simp [hx])) (y :: rest) rfl v v bottom bottom (roundChals ch N n)
          (roundChals ch (N + 11 * n + 1) n) (chalAt ch (N + 22 * n + 13 + 1)) (chalAt ch (N + 22 * n + 13 + 2))
          (mle v (roundChals ch N n)) (mle v (roundChals ch (N + 11 * n + 1) n))
          (chalAt ch (N + 22 * n + 13 + 1) * d.x + chalAt ch (N + 22 * n + 13 + 2) * d.y)
          (mle v (roundChals ch N n)) (mle v (roundChals ch (N + 11 * n + 1) n))
          (chalAt ch (N + 22 * n + 13 + 1) * d.x + chalAt ch (N + 22 * n + 13 + 2) * d.y)
          (lu.trans lv.symm) (by rw [hv, lu]) hrest hrest rfl rfl rfl L hL (N + 22 * n + 13 + 2)
        exact ⟨ps, _, N', Z⟩
      obtain ⟨qs, fin1, N1, Z⟩ := sub d L hL
      obtain ⟨qs', fin2, N2, Z'⟩ := sub d' L' hL'
      have A := layers_step ho params _ _ _ _ _ _ _ _ _ _ _ _ _ _ _ _ _ _ _ _ _ _ _ _ _ Y Z
      have A' := layers_step ho params _ _ _ _ _ _ _ _ _ _ _ _ _ _ _ _ _ _ _ _ _ _ _ _ _ Y' Z'
      have e := ((Prod.mk.inj (A.unique H).1).1).trans ((Prod.mk.inj (A'.unique H').1).1).symm
      obtain ⟨e1, rfl⟩ := List.cons.inj e
      obtain rfl := fin e1
      rw [ih (by simp) (fun x hx => hwide x (by simp [hx])) v bottom _ _ _ _ _ _ _ (lu.trans lv.symm) (by rw [hv, lu]) hrest
        rfl L L' hL hL' _ _ _ qs _ _ Z Z']

end Zkp.Lz
