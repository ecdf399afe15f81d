/- Soundness of the layered product and dot-product circuits of Spartan's evaluation argument. -/
import Verif.Proof.Phases
import Verif.Proof.SpartanSnarkRun

namespace Zkp.Sc

open Zkp.Ml Zkp.Spartan Zkp.Cp

set_option linter.unusedSectionVars false
set_option linter.unusedSimpArgs false

variable {F : Type} [Field F] {G : Type} [AddCommGroup G] [Module F G] [DecidableEq F] [DecidableEq G]

/-! ### Reading a transcript by label -/

/-- The scalars said under a label. -/
def frWith (l : String) : Transcript F G → List F
  | [] => []
  | .fr l' x :: t => if l' = l then x :: frWith l t else frWith l t
  | _ :: t => frWith l t

theorem frWith_append (l : String) (a b : Transcript F G) : frWith l (a ++ b) = frWith l a ++ frWith l b := by
  induction a with
  | nil => rfl
  | cons m a ih =>
    cases m with
    | fr l' x =>
      simp only [List.cons_append, frWith]
      split <;> simp [ih]
    | _ => simpa [frWith] using ih

theorem zipWith_congr_mem {α β γ : Type} {f g : α → β → γ} (l : List α) (m : List β) (h : ∀ a ∈ l, ∀ b, f a b = g a b) :
    List.zipWith f l m = List.zipWith g l m := by
  induction l generalizing m with
  | nil => rfl
  | cons a l ih => cases m with
    | nil => rfl
    | cons b m => simp [h a (by simp) b, ih m fun x hx => h x (by simp [hx])]

/-! ### The cubic sum-check -/

/-- The weighted sum the cubic sum-check is about. -/
def wsum (L : List (List (List F))) (cs : List F) : F := (List.zipWith (fun T c => total prod3 T * c) L cs).sum

/-- All tables folded. -/
def foldL (L : List (List (List F))) (r : F) : List (List (List F)) := L.map fun T => T.map (folded · r)

/-- The bad challenges of the cubic sum-check. -/
noncomputable def badCubic (d : Nat) (cs : List F) : List (List (List F)) → Transcript F G → List F → Finset F
  | L, a, [] => (fewRoots d fun x => polyEval ((frsVals a).getD 0 []) x = wsum (foldL L x) cs) ∪ {1}
  | L, a, r :: vs => badCubic d cs (foldL L r) (past 1 a) vs

theorem badCubic_card (d : Nat) (cs : List F) (L : List (List (List F))) (a : Transcript F G) (vs : List F) :
    (badCubic d cs L a vs).card ≤ d + 1 := by
  fun_induction badCubic d cs L a vs with
  | case1 => exact (Finset.card_union_le _ _).trans (by
      have := fewRoots_card (F := F) d
      simp only [Finset.card_singleton]
      exact Nat.add_le_add_right (this _) 1)
  | case2 _ _ _ _ ih => exact ih

/-- The value at the end of the cubic sum-check. -/
def wfin (L : List (List (List F))) (cs rs : List F) : F :=
  (List.zipWith (fun T c => prod3 (fun i => (T.map (mle · rs)).getD i 0) * c) L cs).sum

theorem cubic_sound {d : Nat} (hd : 3 ≤ d) (ch : Oracle F G) (cs : List F) (polys : List (List F)) (claim : F) (rs : List F)
    (fin : F) (tr tr' : Transcript F G) (h : cubicRounds ch polys claim tr = .ok ((rs, fin), tr'))
    (hp : ∀ p ∈ polys, p.length ≤ d + 1) (L : List (List (List F))) (hL : ∀ T ∈ L, TablesOk polys.length T) :
    ∃ a, Seg ch tr tr' polys.length a rs ∧ (∀ l, frWith l a = []) ∧ (HitT ch (badCubic d cs L) tr tr' ∨
      ((∀ r ∈ rs, r ≠ 1) ∧ (fin = wfin L cs rs → claim = wsum L cs))) := by
  induction polys generalizing claim rs tr L with
  | nil =>
    obtain ⟨hq, rfl⟩ := pure_inv h
    obtain ⟨rfl, rfl⟩ := Prod.mk.inj hq
    refine ⟨[], Seg.refl _ _, fun _ => rfl, Or.inr ⟨by simp, fun h => ?_⟩⟩
    rw [h]
    unfold wfin wsum
    congr 1
    refine zipWith_congr_mem _ _ fun T hT c => ?_
    have hT := hL T hT
    rw [← total_final prod3 _ hT.1, ← foldMany_all _ [] hT.2]
    rfl
  | cons p ps ih =>
    unfold cubicRounds at h
    obtain ⟨_, _, h1, h⟩ := bind_inv h
    obtain rfl := say_inv h1
    obtain ⟨_, _, h1, h⟩ := bind_inv h
    obtain ⟨hsum, rfl⟩ := ensure_inv h1
    obtain ⟨r, _, h1, h⟩ := bind_inv h
    obtain ⟨hr, rfl⟩ := challenge_inv h1
    obtain ⟨⟨rs', f'⟩, t2, h1, h⟩ := bind_inv h
    obtain ⟨hq, rfl⟩ := pure_inv h
    obtain ⟨rfl, rfl⟩ := Prod.mk.inj hq
    have hL' : ∀ T ∈ foldL L r, TablesOk ps.length T := by
      intro T hT
      obtain ⟨U, hU, rfl⟩ := List.mem_map.1 hT
      exact tablesOk_fold (hL U hU) r
    obtain ⟨a, hs, hfr, ho⟩ := ih _ _ _ h1 (fun p hp' => hp p (by simp [hp'])) (foldL L r) hL'
    have hone := (Seg.one ch (tr ++ [.frs "comm_poly" p]) "challenge_nextround").shift (m := [.frs "comm_poly" p])
      (by simp [Plain])
    rw [hr] at hone
    have hseg := hone.trans hs
    refine ⟨_, by rw [List.length_cons, Nat.add_comm]; simpa using hseg, fun l => ?_, ?_⟩
    · simp [frWith, hfr]
    rcases ho with ho | ⟨h1', ho⟩
    · left
      have := HitT.second (A := fun a _ => badCubic d cs L a []) (C := fun _ b a' b' => badCubic d cs (foldL L (b.getD 0 0)) a' b')
        hone ho
      refine this.mono (fun a b => ?_) List.prefix_rfl
      unfold seq
      cases b with
      | nil => simp
      | cons y b => simp [badCubic]
    · have hw := weighted L cs ps.length hL
      obtain ⟨q', hq1, hq2, _, hq4⟩ := hw
      have hev : ∀ x, q'.eval x = wsum (foldL L x) cs := by
        intro x
        rw [hq2]
        unfold wsum foldL
        rw [List.zipWith_map_left]
        congr 1
        refine zipWith_congr_mem _ _ fun T hT c => ?_
        have hT := hL T hT
        rw [partSum_eq]
        unfold total
        rw [tableLen_eq (tablesOk_fold hT x)]
      by_cases hb : (r = 1) ∨ (claim ≠ wsum L cs ∧ polyEval p r = wsum (foldL L r) cs)
      · left
        refine ⟨[.frs "comm_poly" p], [], "challenge_nextround", hs.pre, by rw [drawn_frs]; simp, ?_⟩
        rw [hr]
        unfold badCubic
        rcases hb with rfl | ⟨hne, hb⟩
        · simp
        · apply Finset.mem_union_left
          obtain ⟨q, hq1', hq2'⟩ := listPoly p d (hp p (by simp))
          refine fewRoots_mem (q - q') ?_ (sub_deg hq1' (hq1.trans hd))
            (fun x hx => by rw [Polynomial.eval_sub, hq2', hev]; exact sub_eq_zero.2 hx) hb
          intro h0
          apply hne
          have h0 : q = q' := sub_eq_zero.1 h0
          have hsum' : polyEval p 0 + polyEval p 1 = claim := by simpa using hsum
          rw [← hsum', ← hq2', ← hq2', h0, hq4]
          rfl
      · push Not at hb
        right
        refine ⟨by simpa using ⟨hb.1, h1'⟩, fun hf => ?_⟩
        by_contra hne
        apply hb.2 hne
        apply ho
        rw [hf]
        unfold wfin foldL
        rw [List.zipWith_map_left]
        congr 1
        refine zipWith_congr_mem _ _ fun T hT c => ?_
        simp only [List.map_map]
        have hT := hL T hT
        have hlen : rs'.length = ps.length := hs.len
        have : T.map ((fun x => mle x rs') ∘ fun x => folded x r) = T.map (mle · (r :: rs')) := by
          apply List.map_congr_left
          intro t ht
          rw [Function.comp]
          exact mle_folded t r rs' (by rw [hlen]; exact hT.2 t ht)
        rw [this]

/-! ### One layer -/

theorem sayPairs_inv (l1 l2 : String) (hl : l1 ≠ l2) (xs ys : List F) (hxy : xs.length = ys.length) (tr tr' : Transcript F G)
    (h : sayPairs l1 l2 xs ys tr = .ok ((), tr')) : ∃ m, tr' = tr ++ m ∧ (∀ x ∈ m, Plain x) ∧ frWith l1 m = xs ∧
      frWith l2 m = ys ∧ ∀ l, l ≠ l1 → l ≠ l2 → frWith l m = [] := by
  induction xs generalizing ys tr with
  | nil =>
    cases ys with
    | cons _ _ => simp at hxy
    | nil =>
      obtain ⟨_, rfl⟩ := pure_inv h
      exact ⟨[], by simp, by simp, rfl, rfl, fun _ _ _ => rfl⟩
  | cons x xs ih =>
    cases ys with
    | nil => simp at hxy
    | cons y ys =>
      unfold sayPairs at h
      obtain ⟨_, _, h1, h⟩ := bind_inv h
      obtain rfl := say_inv h1
      obtain ⟨_, _, h1, h⟩ := bind_inv h
      obtain rfl := say_inv h1
      obtain ⟨m, rfl, hm, e1, e2, e3⟩ := ih ys (by simpa using hxy) _ h
      refine ⟨.fr l1 x :: .fr l2 y :: m, by simp, ?_, ?_, ?_, ?_⟩
      · simpa [Plain] using hm
      · simp [frWith, hl.symm, e1]
      · simp [frWith, hl, e2]
      · intro l q1 q2
        simp [frWith, q1.symm, q2.symm, e3 l q1 q2]

theorem sayDotp_inv (coeffs : List F) (k : Nat) (row col val : List F) (dot : F) (tr tr' : Transcript F G)
    (h : sayDotp coeffs k row col val tr = .ok (dot, tr')) : ∃ m, tr' = tr ++ m ∧ (∀ x ∈ m, Plain x) ∧
      frWith "claim_dotp_row" m = row ∧ frWith "claim_dotp_col" m = col.take row.length ∧
      frWith "claim_dotp_val" m = val.take row.length ∧ frWith "claim_prod_left" m = [] ∧ frWith "claim_prod_right" m = [] ∧
      row.length ≤ coeffs.length - k ∧ row.length ≤ col.length ∧ row.length ≤ val.length ∧
      dot = (List.zipWith (fun c (t : F × F × F) => c * (t.1 * t.2.1 * t.2.2)) (coeffs.drop k) (row.zip (col.zip val))).sum := by
  induction row generalizing col val k tr dot with
  | nil =>
    obtain ⟨rfl, rfl⟩ := pure_inv h
    exact ⟨[], by simp, by simp, rfl, rfl, rfl, rfl, rfl, by simp, by simp, by simp, by simp⟩
  | cons x xs ih =>
    cases col with
    | nil => cases val <;> exact absurd h (by rintro ⟨⟩)
    | cons y ys =>
      cases val with
      | nil => exact absurd h (by rintro ⟨⟩)
      | cons z zs =>
        unfold sayDotp at h
        obtain ⟨_, _, h1, h⟩ := bind_inv h
        obtain rfl := say_inv h1
        obtain ⟨_, _, h1, h⟩ := bind_inv h
        obtain rfl := say_inv h1
        obtain ⟨_, _, h1, h⟩ := bind_inv h
        obtain rfl := say_inv h1
        obtain ⟨c, _, h1, h⟩ := bind_inv h
        obtain ⟨hc, rfl⟩ := orPanic_inv h1
        obtain ⟨rest, t2, h1, h⟩ := bind_inv h
        obtain ⟨rfl, rfl⟩ := pure_inv h
        obtain ⟨m, rfl, hm, e1, e2, e3, e4, e5, e6, e7, e8, e9⟩ := ih _ _ _ _ _ h1
        obtain ⟨hk, hc⟩ := List.getElem?_eq_some_iff.1 hc
        refine ⟨.fr "claim_dotp_row" x :: .fr "claim_dotp_col" y :: .fr "claim_dotp_val" z :: m, by simp, ?_, ?_, ?_, ?_, ?_,
          ?_, ?_, ?_, ?_, ?_⟩
        · simpa [Plain] using hm
        · simp [frWith, e1]
        · simp [frWith, e2]
        · simp [frWith, e3]
        · simp [frWith, e4]
        · simp [frWith, e5]
        · simp only [List.length_cons]; omega
        · simpa using e7
        · simpa using e8
        · rw [List.drop_eq_getElem_cons hk, hc, e9]
          simp
          ring

theorem mapM_congr_mem {α β : Type} (f g : α → Option β) (l : List α) (h : ∀ x ∈ l, f x = g x) : l.mapM f = l.mapM g := by
  induction l with
  | nil => rfl
  | cons x l ih => simp [List.mapM_cons, h x (by simp), ih fun y hy => h y (by simp [hy])]

theorem joinDotp_take (r : F) (row col val : List F) :
    joinDotp r row (col.take row.length) (val.take row.length) = joinDotp r row col val := by
  unfold joinDotp
  congr 1
  refine mapM_congr_mem _ _ _ fun i hi => ?_
  have hi : i < row.length / 2 := List.mem_range.1 hi
  rw [List.getElem?_take_of_lt (by omega), List.getElem?_take_of_lt (by omega), List.getElem?_take_of_lt (by omega),
    List.getElem?_take_of_lt (by omega)]

theorem joinDotp_length (r : F) (row col val l : List F) (h : joinDotp r row col val = some l) :
    l.length = 3 * (row.length / 2) := by
  unfold joinDotp at h
  obtain ⟨ls, h1, rfl⟩ := Option.map_eq_some_iff.1 h
  obtain ⟨h2, h3⟩ := mapM_out h1
  rw [flatten_length_of ls 3 fun l hl => ?_, h2, List.length_range, Nat.mul_comm]
  obtain ⟨i, _, hi⟩ := h3 l hl
  simp only [Option.bind_eq_bind, Option.bind_eq_some_iff, Option.some.injEq] at hi
  obtain ⟨_, _, _, _, _, _, _, _, _, _, _, _, rfl⟩ := hi
  rfl

/-- Claims of the dot products together with the dot products they are about. -/
theorem pair_up (full : List (Dotp F)) : ∀ (R C V : List F), R.length = 2 * full.length → C.length = 2 * full.length →
    V.length = 2 * full.length → ∃ Q : List ((F × F) × (F × F) × (F × F) × Dotp F),
      R = Q.flatMap (fun q => [q.1.1, q.1.2]) ∧ C = Q.flatMap (fun q => [q.2.1.1, q.2.1.2]) ∧
      V = Q.flatMap (fun q => [q.2.2.1.1, q.2.2.1.2]) ∧ full = Q.map fun q => q.2.2.2 := by
  induction full with
  | nil =>
    intro R C V h1 h2 h3
    exact ⟨[], List.length_eq_zero_iff.1 (by simpa using h1), List.length_eq_zero_iff.1 (by simpa using h2),
      List.length_eq_zero_iff.1 (by simpa using h3), rfl⟩
  | cons d full ih =>
    intro R C V h1 h2 h3
    match R, C, V, h1, h2, h3 with
    | a :: b :: R, c :: e :: C, f :: g :: V, h1, h2, h3 =>
      obtain ⟨Q, q1, q2, q3, q4⟩ := ih R C V (by simp at h1 ⊢; omega) (by simp at h2 ⊢; omega) (by simp at h3 ⊢; omega)
      exact ⟨((a, b), (c, e), (f, g), d) :: Q, by simp [← q1], by simp [← q2], by simp [← q3], by simp [← q4]⟩
    | [], _, _, h1, _, _ => simp at h1
    | [_], _, _, h1, _, _ => simp at h1; omega
    | _, [], _, _, h1, _ => simp at h1
    | _, [_], _, _, h1, _ => simp at h1; omega
    | _, _, [], _, _, h1 => simp at h1
    | _, _, [_], _, _, h1 => simp at h1; omega

theorem flatMap_three {α : Type} (f g : α → F × F × F) (Q : List α)
    (h : Q.flatMap (fun q => [(f q).1, (f q).2.1, (f q).2.2]) = Q.flatMap fun q => [(g q).1, (g q).2.1, (g q).2.2]) :
    ∀ q ∈ Q, f q = g q := by
  induction Q with
  | nil => simp
  | cons q Q ih =>
    simp only [List.flatMap_cons, List.cons_append, List.nil_append, List.cons.injEq] at h
    obtain ⟨h1, h2, h3, h⟩ := h
    intro x hx
    rcases List.mem_cons.1 hx with rfl | hx
    · exact Prod.ext h1 (Prod.ext h2 h3)
    · exact ih h x hx

/-- Two lines that meet wherever `P` holds but differ. -/
theorem line_hit {P : F → Prop} {p q p' q' x : F} (hne : ¬ (p = p' ∧ q = q'))
    (hP : ∀ x, P x → p + x * (q - p) = p' + x * (q' - p')) (hx : P x) : x ∈ fewRoots 1 P := by
  refine fewRoots_mem (Polynomial.C (p - p') + Polynomial.C ((q - p) - (q' - p')) * Polynomial.X) ?_ ?_ ?_ hx
  · intro h0
    have h1 := congrArg (Polynomial.eval 0) h0
    have h2 := congrArg (Polynomial.eval 1) h0
    simp at h1 h2
    have e1 : p = p' := sub_eq_zero.1 h1
    exact hne ⟨e1, by rw [e1] at h2; linear_combination h2⟩
  · refine (Polynomial.natDegree_add_le _ _).trans (max_le (by simp) ?_)
    exact Polynomial.natDegree_C_mul_le _ _ |>.trans (by simp)
  · intro y hy
    simp
    linear_combination hP y hy

/-- The tables of a layer. -/
def layerTabs (ys : List (List F)) (rands : List F) (full : List (Dotp F)) : List (List (List F)) :=
  (ys.map fun y => [y.take (2 ^ rands.length), y.drop (2 ^ rands.length), evalEq rands]) ++
    (halfList full).map fun d => [d.1, d.2.1, d.2.2]

/-- The true claims of a layer. -/
def layerTruth (ys : List (List F)) (rands : List F) (full : List (Dotp F)) : List F :=
  (ys.map fun y => mle (halve y) rands) ++ halfSums full

theorem halfSums_length (full : List (Dotp F)) : (halfSums full).length = 2 * full.length := by
  unfold halfSums
  rw [pair_length]

theorem halfList_length (full : List (Dotp F)) : (halfList full).length = 2 * full.length := by
  unfold halfList
  rw [pair_length]

/-- The bad challenges at the end of a layer. -/
noncomputable def badJoin (ys : List (List F)) (full : List (Dotp F)) (rs : List F) (a : Transcript F G) : Finset F :=
  (fewRoots 1 fun x => List.zipWith (fun p q => p + x * (q - p)) (frWith "claim_prod_left" a) (frWith "claim_prod_right" a) =
      ys.map (mle · (x :: rs)) ∧
    joinDotp x (frWith "claim_dotp_row" a) (frWith "claim_dotp_col" a) (frWith "claim_dotp_val" a) =
      some (dotpAt full (x :: rs))) ∪ {1}

/-- The bad challenges of a layer. -/
noncomputable def badLayer (d : Nat) (ys : List (List F)) (full : List (Dotp F)) (claims rands : List F) :
    Transcript F G → List F → Finset F :=
  seq (ys.length + 2 * full.length)
    (fun _ vs => badComb 0 (List.zipWith (· - ·) claims (layerTruth ys rands full)) vs) fun _ cs =>
  seq rands.length (badCubic d cs (layerTabs ys rands full)) fun _ rs a _ => badJoin ys full rs a

theorem badLayer_card (d : Nat) (hd : 3 ≤ d) (ys : List (List F)) (full : List (Dotp F)) (claims rands : List F)
    (a : Transcript F G) (vs : List F) : (badLayer d ys full claims rands a vs).card ≤ d + 1 := by
  refine seq_card (fun _ _ => (badComb_card _ _ _).trans (by omega)) (fun _ _ a b => ?_) _ _
  refine seq_card (fun _ _ => badCubic_card _ _ _ _ _) (fun _ _ a b => ?_) _ _
  refine (Finset.card_union_le _ _).trans ?_
  have := fewRoots_card (F := F) 1
  simp only [Finset.card_singleton]
  exact (Nat.add_le_add_right (this _) 1).trans (by omega)

theorem layerTabs_ok (ys : List (List F)) (rands : List F) (full : List (Dotp F)) (i : Nat) (hi : rands.length = i)
    (hys : ∀ y ∈ ys, y.length = 2 ^ (i + 1))
    (hfull : ∀ d ∈ full, d.1.length = 2 ^ (i + 1) ∧ d.2.1.length = 2 ^ (i + 1) ∧ d.2.2.length = 2 ^ (i + 1)) :
    ∀ T ∈ layerTabs ys rands full, TablesOk i T := by
  intro T hT
  have hpow : 2 ^ (i + 1) = 2 ^ i + 2 ^ i := by ring
  rcases List.mem_append.1 hT with h | h
  · obtain ⟨y, hy, rfl⟩ := List.mem_map.1 h
    refine ⟨by simp, fun t ht => ?_⟩
    simp only [List.mem_cons, List.not_mem_nil, or_false] at ht
    rcases ht with rfl | rfl | rfl
    · simp [hi, hys y hy, hpow]
    · simp [hi, hys y hy, hpow]
    · simp [evalEq_length, hi]
  · obtain ⟨d, hd, rfl⟩ := List.mem_map.1 h
    obtain ⟨q1, q2, q3⟩ := halfList_len i full hfull d hd
    refine ⟨by simp, fun t ht => ?_⟩
    simp only [List.mem_cons, List.not_mem_nil, or_false] at ht
    rcases ht with rfl | rfl | rfl <;> assumption

theorem layer_total (ys : List (List F)) (rands : List F) (full : List (Dotp F)) (i : Nat) (hi : rands.length = i)
    (hys : ∀ y ∈ ys, y.length = 2 ^ (i + 1))
    (hfull : ∀ d ∈ full, d.1.length = 2 ^ (i + 1) ∧ d.2.1.length = 2 ^ (i + 1) ∧ d.2.2.length = 2 ^ (i + 1)) :
    (layerTabs ys rands full).map (total prod3) = layerTruth ys rands full := by
  have hok := layerTabs_ok ys rands full i hi hys hfull
  unfold layerTabs layerTruth
  rw [List.map_append, List.map_map, List.map_map]
  congr 1
  · apply List.map_congr_left
    intro y hy
    have := hok [y.take (2 ^ rands.length), y.drop (2 ^ rands.length), evalEq rands]
      (List.mem_append_left _ (List.mem_map_of_mem hy))
    rw [Function.comp, mle_halve y rands (by rw [hi]; exact hys y hy)]
    unfold total
    rw [tableLen_eq this, hi]
    rfl
  · have : halfSums full = (halfList full).map sumDotp := by rw [halfList_map]; rfl
    rw [this]
    apply List.map_congr_left
    intro d hd
    have := hok [d.1, d.2.1, d.2.2] (List.mem_append_right _ (List.mem_map_of_mem (f := fun d => [d.1, d.2.1, d.2.2]) hd))
    rw [Function.comp]
    unfold total sumDotp
    rw [tableLen_eq this, (halfList_len i full hfull d hd).1, sum_range_map]
    rfl

/-- The final value of a layer when all claims about the point are true. -/
theorem layer_fin (ys : List (List F)) (rands : List F) (full : List (Dotp F)) (i : Nat) (hi : rands.length = i)
    (cs rs : List F) (hcs : cs.length = ys.length + 2 * full.length) (hrs : rs.length = i) :
    wfin (layerTabs ys rands full) cs rs =
      (List.zipWith (fun c (p : F × F) => c * (p.1 * p.2 *
        (List.zipWith (fun x y => x * y + (1 - x) * (1 - y)) rs rands).prod)) cs
          ((ys.map fun y => mle (y.take (2 ^ i)) rs).zip (ys.map fun y => mle (y.drop (2 ^ i)) rs))).sum +
      (List.zipWith (fun c (t : F × F × F) => c * (t.1 * t.2.1 * t.2.2)) (cs.drop ys.length)
        (((halfList full).map fun d => mle d.1 rs).zip (((halfList full).map fun d => mle d.2.1 rs).zip
          ((halfList full).map fun d => mle d.2.2 rs)))).sum := by
  unfold wfin layerTabs
  rw [zipWith_append_drop _ _ _ _ (by simp; omega), List.sum_append, eqProd rs rands (by rw [hi, hrs]), hi]
  simp only [List.length_map, List.zip_map', List.zipWith_map_left, List.zipWith_map_right]
  congr 2
  · rw [List.zipWith_comm]
    congr 1
    funext c y
    simp [prod3, mul_comm]
  · rw [List.zipWith_comm]
    congr 1
    funext c y
    simp [prod3, mul_comm]

theorem join_true (full : List (Dotp F)) (i : Nat) (rs : List F) (hrs : rs.length = i) (x : F)
    (hfull : ∀ d ∈ full, d.1.length = 2 ^ (i + 1) ∧ d.2.1.length = 2 ^ (i + 1) ∧ d.2.2.length = 2 ^ (i + 1)) :
    ∀ d ∈ full, mle d.1 (x :: rs) = mle (halfDotp d).1.1 rs + x * (mle (halfDotp d).2.1 rs - mle (halfDotp d).1.1 rs) ∧
      mle d.2.1 (x :: rs) = mle (halfDotp d).1.2.1 rs + x * (mle (halfDotp d).2.2.1 rs - mle (halfDotp d).1.2.1 rs) ∧
      mle d.2.2 (x :: rs) = mle (halfDotp d).1.2.2 rs + x * (mle (halfDotp d).2.2.2 rs - mle (halfDotp d).1.2.2 rs) := by
  intro d hd
  obtain ⟨q1, _, _⟩ := hfull d hd
  have hk : d.1.length / 2 = 2 ^ rs.length := by rw [q1, hrs, pow_succ]; omega
  simp only [halfDotp, hk]
  exact ⟨(mle_halves _ _ _).symm, (mle_halves _ _ _).symm, (mle_halves _ _ _).symm⟩

set_option maxHeartbeats 1600000 in
/-- If the claims said at the end of a layer join to true claims then they are true, or the joining challenge is bad. -/
theorem join_sound (ys : List (List F)) (full : List (Dotp F)) (i : Nat) (rs : List F) (hrs : rs.length = i)
    (hfull : ∀ d ∈ full, d.1.length = 2 ^ (i + 1) ∧ d.2.1.length = 2 ^ (i + 1) ∧ d.2.2.length = 2 ^ (i + 1))
    (left right row col val : List F) (hl : left.length = ys.length) (hr : right.length = ys.length)
    (hrow : row.length ≤ 2 * full.length) (hcol : col.length = row.length) (hval : val.length = row.length) (P : F → Prop)
    (hP : P = fun x => List.zipWith (fun p q => p + x * (q - p)) left right = ys.map (mle · (x :: rs)) ∧
      joinDotp x row col val = some (dotpAt full (x :: rs))) (x : F) (hx : P x) :
    x ∈ fewRoots 1 P ∨ (left = ys.map (fun y => mle (y.take (2 ^ i)) rs) ∧ right = ys.map (fun y => mle (y.drop (2 ^ i)) rs) ∧
      row = (halfList full).map (fun d => mle d.1 rs) ∧ col = (halfList full).map (fun d => mle d.2.1 rs) ∧
      val = (halfList full).map (fun d => mle d.2.2 rs)) := by
  by_cases hb : x ∈ fewRoots 1 P
  · exact Or.inl hb
  right
  have hline : ∀ {p q p' q' : F}, (∀ x, P x → p + x * (q - p) = p' + x * (q' - p')) → p = p' ∧ q = q' := by
    intro p q p' q' h
    by_contra hne
    exact hb (line_hit hne h hx)
  have hlr : ∀ j (hj : j < ys.length), left[j]'(by omega) = mle (ys[j].take (2 ^ i)) rs ∧
      right[j]'(by omega) = mle (ys[j].drop (2 ^ i)) rs := by
    intro j hj
    apply hline
    intro z hz
    rw [hP] at hz
    have h1 := congrArg (fun l => l[j]?) hz.1
    simp only [List.getElem?_zipWith, List.getElem?_map, List.getElem?_eq_getElem hj,
      List.getElem?_eq_getElem (show j < left.length by omega), List.getElem?_eq_getElem (show j < right.length by omega),
      Option.map_some, Option.some.injEq] at h1
    rw [h1, ← hrs]
    exact (mle_halves _ _ _).symm
  have hrow2 : row.length = 2 * full.length := by
    have hx' := hx
    rw [hP] at hx'
    have h1 := joinDotp_length _ _ _ _ _ hx'.2
    have h2 : (dotpAt full (x :: rs)).length = 3 * full.length := by
      unfold dotpAt
      clear h1 hx' hfull hrow hP hline hb hlr
      induction full with
      | nil => rfl
      | cons d full ih => simp [List.flatMap_cons] at ih ⊢; omega
    omega
  obtain ⟨Q, q1, q2, q3, q4⟩ := pair_up full row col val hrow2 (by omega) (by omega)
  have hq : ∀ q ∈ Q, (q.1.1 = mle (halfDotp q.2.2.2).1.1 rs ∧ q.1.2 = mle (halfDotp q.2.2.2).2.1 rs) ∧
      (q.2.1.1 = mle (halfDotp q.2.2.2).1.2.1 rs ∧ q.2.1.2 = mle (halfDotp q.2.2.2).2.2.1 rs) ∧
      (q.2.2.1.1 = mle (halfDotp q.2.2.2).1.2.2 rs ∧ q.2.2.1.2 = mle (halfDotp q.2.2.2).2.2.2 rs) := by
    intro q hqm
    have key : ∀ z, P z → (q.1.1 + z * (q.1.2 - q.1.1), q.2.1.1 + z * (q.2.1.2 - q.2.1.1),
        q.2.2.1.1 + z * (q.2.2.1.2 - q.2.2.1.1)) =
        (mle q.2.2.2.1 (z :: rs), mle q.2.2.2.2.1 (z :: rs), mle q.2.2.2.2.2 (z :: rs)) := by
      intro z hz
      rw [hP] at hz
      have h1 := hz.2
      rw [q1, q2, q3, joinDotp_pairs z (fun q : (F × F) × (F × F) × (F × F) × Dotp F => q.1.1) (fun q => q.1.2)
        (fun q => q.2.1.1) (fun q => q.2.1.2) (fun q => q.2.2.1.1) (fun q => q.2.2.1.2), q4, Option.some.injEq] at h1
      unfold dotpAt at h1
      rw [List.flatMap_map] at h1
      exact flatMap_three
        (fun q : (F × F) × (F × F) × (F × F) × Dotp F => (q.1.1 + z * (q.1.2 - q.1.1), q.2.1.1 + z * (q.2.1.2 - q.2.1.1),
          q.2.2.1.1 + z * (q.2.2.1.2 - q.2.2.1.1)))
        (fun q => (mle q.2.2.2.1 (z :: rs), mle q.2.2.2.2.1 (z :: rs), mle q.2.2.2.2.2 (z :: rs))) Q h1 q hqm
    have hd : q.2.2.2 ∈ full := by rw [q4]; exact List.mem_map_of_mem hqm
    refine ⟨hline fun z hz => ?_, hline fun z hz => ?_, hline fun z hz => ?_⟩
    · rw [← (join_true full i rs hrs z hfull _ hd).1]; exact congrArg (fun t => t.1) (key z hz)
    · rw [← (join_true full i rs hrs z hfull _ hd).2.1]; exact congrArg (fun t => t.2.1) (key z hz)
    · rw [← (join_true full i rs hrs z hfull _ hd).2.2]; exact congrArg (fun t => t.2.2) (key z hz)
  refine ⟨?_, ?_, ?_, ?_, ?_⟩
  · exact List.ext_getElem (by simp [hl]) fun j h1 h2 => by simp [(hlr j (by omega)).1]
  · exact List.ext_getElem (by simp [hr]) fun j h1 h2 => by simp [(hlr j (by omega)).2]
  · rw [halfList_map, q4, List.flatMap_map, q1]
    exact List.flatMap_congr fun q hqm => by rw [(hq q hqm).1.1, (hq q hqm).1.2]
  · rw [halfList_map, q4, List.flatMap_map, q2]
    exact List.flatMap_congr fun q hqm => by rw [(hq q hqm).2.1.1, (hq q hqm).2.1.2]
  · rw [halfList_map, q4, List.flatMap_map, q3]
    exact List.flatMap_congr fun q hqm => by rw [(hq q hqm).2.2.1, (hq q hqm).2.2.2]

set_option maxHeartbeats 1600000 in
theorem layer_sound {d : Nat} (hd : 3 ≤ d) (ch : Oracle F G) (ys : List (List F)) (full : List (Dotp F)) (i : Nat)
    (claims rands : List F) (hi : rands.length = i) (hys : ∀ y ∈ ys, y.length = 2 ^ (i + 1))
    (hfull : ∀ d ∈ full, d.1.length = 2 ^ (i + 1) ∧ d.2.1.length = 2 ^ (i + 1) ∧ d.2.2.length = 2 ^ (i + 1))
    (hcl : claims.length = ys.length + 2 * full.length) (polys : List (List F)) (hp : ∀ p ∈ polys, p.length ≤ d + 1)
    (cs rs : List F) (fin dot rl : F) (left right row col val : List F) (hlr : left.length = right.length)
    (hln : left.length = ys.length) (l1 : String) (tr t1 t2 t3 t4 : Transcript F G)
    (h1 : challenges ch l1 claims.length tr = .ok (cs, t1))
    (h2 : cubicVerify ch polys i (List.zipWith (· * ·) claims cs).sum t1 = .ok ((rs, fin), t2))
    (h3 : sayPairs "claim_prod_left" "claim_prod_right" left right t2 = .ok ((), t3))
    (h4 : sayDotp cs left.length row col val t3 = .ok (dot, t4))
    (h5 : (List.zipWith (fun c (p : F × F) => c * (p.1 * p.2 *
        (List.zipWith (fun x y => x * y + (1 - x) * (1 - y)) rs rands).prod)) cs (left.zip right)).sum + dot = fin)
    (hrl : ch (t4 ++ [.chal "challenge_r_layer"]) = rl) :
    ∃ a, Seg ch tr (t4 ++ [.chal "challenge_r_layer"]) (ys.length + 2 * full.length + (i + 1)) a (cs ++ (rs ++ [rl])) ∧
      frWith "claim_prod_left" a = left ∧ frWith "claim_prod_right" a = right ∧
      (HitT ch (badLayer d ys full claims rands) tr (t4 ++ [.chal "challenge_r_layer"]) ∨
        ((∀ r ∈ rl :: rs, r ≠ 1) ∧ (List.zipWith (fun p q => p + rl * (q - p)) left right = ys.map (mle · (rl :: rs)) →
          joinDotp rl row col val = some (dotpAt full (rl :: rs)) → claims = layerTruth ys rands full))) := by
  have htl : (layerTruth ys rands full).length = ys.length + 2 * full.length := by simp [layerTruth, halfSums_length]
  obtain ⟨a1, s1, o1⟩ := comb_sound h1 (List.zipWith (· - ·) claims (layerTruth ys rands full)) (by simp [htl, hcl]) 0
  have hcs : cs.length = ys.length + 2 * full.length := by rw [s1.len, hcl]
  have hfr1 : ∀ l, frWith l a1 = [] := by
    intro l
    have : ∀ (n : Nat) (cs : List F) (tr t1 a : Transcript F G), challenges ch l1 n tr = .ok (cs, t1) → t1 = tr ++ a →
        frWith l a = [] := by
      intro n
      induction n with
      | zero =>
        intro cs tr t1 a h e
        obtain ⟨_, rfl⟩ := pure_inv h
        obtain rfl : a = [] := by simpa using e
        rfl
      | succ n ih =>
        intro cs tr t1 a h e
        obtain ⟨cs', _, h'⟩ := challenges_cons_inv _ _ _ _ _ _ h
        obtain ⟨w, hw⟩ := (challenges_seg h').elim fun _ s => s.pre
        obtain rfl : a = .chal l1 :: w := by
          rw [← hw, List.append_assoc] at e
          simpa using (List.append_cancel_left e).symm
        have := ih cs' _ _ w h' hw.symm
        simpa [frWith] using this
    exact this _ _ _ _ _ h1 s1.eq
  unfold cubicVerify at h2
  obtain ⟨_, _, q1, h2⟩ := bind_inv h2
  obtain ⟨hpl, rfl⟩ := ensure_inv q1
  have hpl : polys.length = i := by simpa using hpl
  have hok := layerTabs_ok ys rands full i hi hys hfull
  obtain ⟨a2, s2, hfr2, o2⟩ := cubic_sound hd ch cs polys _ rs fin _ t2 h2 hp (layerTabs ys rands full) (by rw [hpl]; exact hok)
  rw [hpl] at s2
  obtain ⟨m1, e3, hm1, pl, pr, pn⟩ := sayPairs_inv "claim_prod_left" "claim_prod_right" (by decide) left right hlr t2 t3 h3
  obtain ⟨m2, e4, hm2, d1, d2, d3, d4, d5, d6, d7, d8, d9⟩ := sayDotp_inv cs left.length row col val dot t3 t4 h4
  have hm : ∀ x ∈ m1 ++ m2, Plain x := by
    intro x hx
    rcases List.mem_append.1 hx with h | h
    · exact hm1 x h
    · exact hm2 x h
  have e4' : t4 = t2 ++ (m1 ++ m2) := by rw [e4, e3, List.append_assoc]
  have s3 : Seg ch t2 (t4 ++ [.chal "challenge_r_layer"]) 1 (m1 ++ m2 ++ [.chal "challenge_r_layer"]) [rl] := by
    have := Seg.one ch (t2 ++ (m1 ++ m2)) "challenge_r_layer"
    rw [← e4', hrl] at this
    rw [e4'] at this ⊢
    exact this.shift hm
  have fl : frWith "claim_prod_left" (m1 ++ m2) = left := by rw [frWith_append, pl, d4, List.append_nil]
  have fr : frWith "claim_prod_right" (m1 ++ m2) = right := by rw [frWith_append, pr, d5, List.append_nil]
  have frow : frWith "claim_dotp_row" (m1 ++ m2) = row := by
    rw [frWith_append, pn _ (by decide) (by decide), d1, List.nil_append]
  have fcol : frWith "claim_dotp_col" (m1 ++ m2) = col.take row.length := by
    rw [frWith_append, pn _ (by decide) (by decide), d2, List.nil_append]
  have fval : frWith "claim_dotp_val" (m1 ++ m2) = val.take row.length := by
    rw [frWith_append, pn _ (by decide) (by decide), d3, List.nil_append]
  have hseg := s1.trans (s2.trans s3)
  refine ⟨_, by rw [hcl] at hseg; exact hseg, ?_, ?_, ?_⟩
  · rw [frWith_append, frWith_append, frWith_append, hfr1, hfr2, fl]; simp [frWith]
  · rw [frWith_append, frWith_append, frWith_append, hfr1, hfr2, fr]; simp [frWith]
  have s1' := s1
  rw [hcl] at s1'
  have s2' := s2
  rw [← hi] at s2'
  rcases o1 with o1 | o1
  · exact Or.inl (o1.first s1' (s2.pre.trans s3.pre))
  rcases o2 with o2 | ⟨hone, o2⟩
  · exact Or.inl (HitT.second s1' (o2.first s2' s3.pre))
  have hjoin : rl ∈ badJoin ys full rs (m1 ++ m2) →
      HitT ch (badLayer d ys full claims rands) tr (t4 ++ [.chal "challenge_r_layer"]) := by
    intro hb
    refine HitT.second s1' (HitT.second s2' ?_)
    refine ⟨m1 ++ m2, [], "challenge_r_layer", by rw [e4'], by rw [drawn_plain _ _ _ hm]; simp, ?_⟩
    rw [← e4', hrl]
    exact hb
  by_cases hrl1 : rl = 1
  · exact Or.inl (hjoin (by simp [badJoin, hrl1]))
  by_cases hP : List.zipWith (fun p q => p + rl * (q - p)) left right = ys.map (mle · (rl :: rs)) ∧
      joinDotp rl row (col.take row.length) (val.take row.length) = some (dotpAt full (rl :: rs))
  · have hrs : rs.length = i := s2.len
    rcases join_sound ys full i rs hrs hfull left right row (col.take row.length) (val.take row.length) hln (by omega) (by omega)
      (by simp [d7]) (by simp [d8]) _ rfl rl hP with hb | ⟨q1, q2, q3, q4, q5⟩
    · left
      apply hjoin
      unfold badJoin
      rw [fl, fr, frow, fcol, fval]
      exact Finset.mem_union_left _ hb
    · right
      refine ⟨by simpa using ⟨hrl1, hone⟩, fun _ _ => ?_⟩
      have hfin : fin = wfin (layerTabs ys rands full) cs rs := by
        rw [layer_fin ys rands full i hi cs rs hcs hrs, ← h5, d9, hln, ← q1, ← q2, ← q3, ← q4, ← q5]
        congr 3
        rw [List.zip_eq_zipWith, List.zip_eq_zipWith, List.zip_eq_zipWith, List.zip_eq_zipWith]
        apply List.ext_getElem (by simp; omega)
        intro j _ _
        simp
      have hcw := o2 hfin
      have hz : (0 : F) + (List.zipWith (· * ·) (List.zipWith (· - ·) claims (layerTruth ys rands full)) cs).sum = 0 := by
        have e1 : wsum (layerTabs ys rands full) cs = (List.zipWith (· * ·) (layerTruth ys rands full) cs).sum := by
          rw [← layer_total ys rands full i hi hys hfull, List.zipWith_map_left]; rfl
        rw [e1] at hcw
        have e2 : ∀ (a b c : List F), a.length = b.length →
            (List.zipWith (· * ·) (List.zipWith (· - ·) a b) c).sum =
              (List.zipWith (· * ·) a c).sum - (List.zipWith (· * ·) b c).sum := by
          intro a
          induction a with
          | nil => intro b c h; cases b with
            | nil => simp
            | cons _ _ => simp at h
          | cons x a ih =>
            intro b c h
            cases b with
            | nil => simp at h
            | cons y b =>
              cases c with
              | nil => simp
              | cons z c =>
                simp only [List.zipWith_cons_cons, List.sum_cons, ih b c (by simpa using h)]
                ring
        rw [e2 _ _ _ (by rw [htl, hcl]), hcw, sub_self, zero_add]
      have hall := (o1 hz).2
      apply List.ext_getElem (by rw [htl, hcl])
      intro j j1 j2
      have := hall ((List.zipWith (· - ·) claims (layerTruth ys rands full))[j]'(by simp; omega)) (List.getElem_mem _)
      simpa [sub_eq_zero] using this
  · right
    refine ⟨by simpa using ⟨hrl1, hone⟩, fun g1 g2 => ?_⟩
    exact absurd ⟨g1, by rw [joinDotp_take]; exact g2⟩ hP

/-! ### All layers -/

/-- The number of challenges of the last `r` layers out of `K`, for `p` product circuits and `f` dot products. -/
def layersNum (p f K : Nat) : Nat → Nat
  | 0 => 0
  | r + 1 => p + (if r = 0 then 2 * f else 0) + (K - (r + 1) + 1) + layersNum p f K r

/-- The point after the last `r` layers. -/
def layersPoint (p f : Nat) : Nat → List F → List F → List F
  | 0, rands, _ => rands
  | r + 1, rands, b =>
    let n := p + (if r = 0 then 2 * f else 0)
    layersPoint p f r (b.getD (n + rands.length) 0 :: (b.drop n).take rands.length) (b.drop (n + (rands.length + 1)))

/-- The bad challenges of the last `r` layers. -/
noncomputable def badLayers (d : Nat) (xs : List (List F)) (full : List (Dotp F)) (dotp : List F) :
    Nat → List F → List F → Transcript F G → List F → Finset F
  | 0, _, _ => fun _ _ => ∅
  | r + 1, claims, rands =>
    let n := xs.length + (if r = 0 then 2 * full.length else 0)
    seq (n + (rands.length + 1))
      (badLayer d (xs.map halve^[r]) (if r = 0 then full else []) (if r = 0 then claims ++ dotp else claims) rands) fun a b =>
    badLayers d xs full dotp r
      (List.zipWith (fun p q => p + b.getD (n + rands.length) 0 * (q - p)) (frWith "claim_prod_left" a)
        (frWith "claim_prod_right" a))
      (b.getD (n + rands.length) 0 :: (b.drop n).take rands.length)

theorem badLayers_card (d : Nat) (hd : 3 ≤ d) (xs : List (List F)) (full : List (Dotp F)) (dotp : List F) (r : Nat)
    (claims rands : List F) (a : Transcript F G) (vs : List F) : (badLayers d xs full dotp r claims rands a vs).card ≤ d + 1 := by
  induction r generalizing claims rands a vs with
  | zero => simp [badLayers]
  | succ r ih =>
    unfold badLayers
    exact seq_card (fun _ _ => badLayer_card d hd _ _ _ _ _ _) (fun _ _ _ _ => ih _ _ _ _) _ _

set_option maxHeartbeats 1600000 in
theorem layers_sound {d : Nat} (hd : 3 ≤ d) (ch : Oracle F G) (K : Nat) (xs : List (List F)) (hxs : ∀ x ∈ xs, x.length = 2 ^ K)
    (full : List (Dotp F)) (hfull : ∀ d ∈ full, d.1.length = 2 ^ K ∧ d.2.1.length = 2 ^ K ∧ d.2.2.length = 2 ^ K)
    (proof : CircuitEvalProof F) (dotp : List F) (hdl : dotp.length = 2 * full.length) (r : Nat) (hr : r ≤ K) :
    ∀ (ls : List (LayerProof F)), ls.length = r → (∀ l ∈ ls, ∀ p ∈ l.polys, p.length ≤ d + 1) →
    ∀ (claims cd rands : List F), claims.length = xs.length → rands.length = K - r →
    ∀ (out od pt : List F) (tr tr' : Transcript F G),
      layersVerify ch proof dotp xs.length (K - 1) ls (K - r) claims cd rands tr = .ok ((out, od, pt), tr') →
      ∃ a b, Seg ch tr tr' (layersNum xs.length full.length K r) a b ∧ pt = layersPoint xs.length full.length r rands b ∧
        pt.length = K ∧ out.length = xs.length ∧ (r = 0 → od = cd) ∧ (0 < r → od.length ≤ 3 * full.length) ∧
        (HitT ch (badLayers d xs full dotp r claims rands) tr tr' ∨
          ((0 < r → ∀ y ∈ pt, y ≠ 1) ∧ (out = xs.map (mle · pt) → (0 < r → od = dotpAt full pt) →
            claims = xs.map (fun x => mle (halve^[r] x) rands) ∧ (0 < r → dotp = halfSums full)))) := by
  induction r with
  | zero =>
    intro ls hls hp claims cd rands hc hra out od pt tr tr' h
    obtain rfl := List.length_eq_zero_iff.1 hls
    obtain ⟨e, rfl⟩ := pure_inv h
    obtain ⟨rfl, e'⟩ := Prod.mk.inj e
    obtain ⟨rfl, rfl⟩ := Prod.mk.inj e'
    exact ⟨[], [], Seg.refl _ _, rfl, by simpa using hra, hc, fun _ => rfl, by simp, Or.inr ⟨by simp, fun h _ => ⟨h, by simp⟩⟩⟩
  | succ r ih =>
    intro ls hls hp claims cd rands hc hra out od pt tr tr' h
    match ls, hls with
    | l :: ls, hls =>
    obtain ⟨i, hi⟩ : ∃ i, i = K - (r + 1) := ⟨_, rfl⟩
    rw [← hi] at h hra
    have hlast : i = K - 1 ↔ r = 0 := by omega
    have hKr : K - r = i + 1 := by omega
    obtain ⟨f, hf⟩ : ∃ f, f = if r = 0 then full else [] := ⟨_, rfl⟩
    obtain ⟨C, hC⟩ : ∃ C, C = if r = 0 then claims ++ dotp else claims := ⟨_, rfl⟩
    have hfl : 2 * f.length = if r = 0 then 2 * full.length else 0 := by rw [hf]; split_ifs <;> simp
    have hCl : C.length = (xs.map halve^[r]).length + 2 * f.length := by
      rw [hC, hfl, List.length_map]
      split_ifs <;> simp [hc, hdl]
    have hys : ∀ y ∈ xs.map halve^[r], y.length = 2 ^ (i + 1) := by
      intro y hy
      obtain ⟨x, hx, rfl⟩ := List.mem_map.1 hy
      rw [halve_iter_length x K r (hxs x hx) (by omega), hKr]
    have hff : ∀ d ∈ f, d.1.length = 2 ^ (i + 1) ∧ d.2.1.length = 2 ^ (i + 1) ∧ d.2.2.length = 2 ^ (i + 1) := by
      intro d hd
      rw [hf] at hd
      split_ifs at hd with h0
      · have : K = i + 1 := by omega
        rw [← this]; exact hfull d hd
      · simp at hd
    unfold layersVerify at h
    simp only [] at h
    have eC : (if i = K - 1 then claims ++ dotp else claims) = C := by
      rw [hC]
      by_cases h0 : r = 0
      · rw [if_pos (hlast.2 h0), if_pos h0]
      · rw [if_neg (fun h => h0 (hlast.1 h)), if_neg h0]
    rw [eC] at h
    obtain ⟨cs, t1, h1, h⟩ := bind_inv h
    obtain ⟨⟨rs, fin⟩, t2, h2, h⟩ := bind_inv h
    simp only [] at h
    obtain ⟨_, t2', q, h⟩ := bind_inv h
    obtain ⟨hlr, e⟩ := ensure_inv q
    subst e
    obtain ⟨_, t2', q, h⟩ := bind_inv h
    obtain ⟨hln, e⟩ := ensure_inv q
    subst e
    obtain ⟨_, t3, h3, h⟩ := bind_inv h
    obtain ⟨_, t3', q, h⟩ := bind_inv h
    obtain ⟨hrr, e⟩ := ensure_inv q
    subst e
    rw [ite_bind] at h
    obtain ⟨dot, t4, h4, h⟩ := bind_inv h
    obtain ⟨_, t4', q, h⟩ := bind_inv h
    obtain ⟨h5, e⟩ := ensure_inv q
    subst e
    obtain ⟨rl, t5, q, h⟩ := bind_inv h
    obtain ⟨hrl, e⟩ := challenge_inv q
    subst e
    rw [ite_bind] at h
    obtain ⟨nd, t6, h6, h⟩ := bind_inv h
    obtain ⟨row, hrow⟩ : ∃ row, row = if r = 0 then proof.dotpRow else [] := ⟨_, rfl⟩
    have h4' : sayDotp cs l.left.length row proof.dotpCol proof.dotpVal t3 = .ok (dot, t4) := by
      rw [hrow]
      by_cases h0 : r = 0
      · rw [if_pos h0]; rw [if_pos (hlast.2 h0)] at h4; exact h4
      · rw [if_neg h0]; rw [if_neg (fun h => h0 (hlast.1 h))] at h4; simpa [sayDotp] using h4
    have h6' : joinDotp rl row proof.dotpCol proof.dotpVal = some nd ∧ t6 = t4 ++ [.chal "challenge_r_layer"] := by
      rw [hrow]
      by_cases h0 : r = 0
      · rw [if_pos h0]; rw [if_pos (hlast.2 h0)] at h6
        obtain ⟨q1, q2⟩ := orPanic_inv h6
        exact ⟨q1, q2.symm⟩
      · rw [if_neg h0]; rw [if_neg (fun h => h0 (hlast.1 h))] at h6
        obtain ⟨q1, q2⟩ := pure_inv h6
        exact ⟨by rw [← q1]; simp [joinDotp], q2.symm⟩
    obtain ⟨hnd, e6⟩ := h6'
    subst e6
    have hln' : l.left.length = (xs.map halve^[r]).length := by simpa using hln
    obtain ⟨a, hs, fl, fr, ho⟩ := layer_sound hd ch (xs.map halve^[r]) f i C rands hra hys hff hCl l.polys (hp l (by simp)) cs rs
      fin dot rl l.left l.right row proof.dotpCol proof.dotpVal (by simpa using hlr) hln' _ tr t1 t2 t3 t4 h1 h2 h3 h4'
      (by simpa using h5) hrl
    have hrs : rs.length = i := cubicVerify_length _ _ _ _ _ _ _ _ h2
    have hcs : cs.length = xs.length + 2 * f.length := by
      have := hs.len
      simp only [List.length_append, List.length_map, hrs, List.length_singleton] at this
      omega
    rw [← hKr] at h
    obtain ⟨a', b', hs', hpt, hptl, hol, hod, hodl, ho'⟩ := ih (by omega) ls (by simpa using hls) (fun l hl => hp l (by simp [hl])) _ nd
      (rl :: rs) (by simp [hln', ← (show l.left.length = l.right.length by simpa using hlr)]) (by simp [hrs]; omega) out od pt _ tr' h
    rw [List.length_map] at hs
    have hseg := hs.trans hs'
    have g1 : (cs ++ (rs ++ [rl])).getD (xs.length + 2 * f.length + rands.length) 0 = rl := by
      rw [← hcs, hra, ← hrs]
      simp
    have g2 : ((cs ++ (rs ++ [rl])).drop (xs.length + 2 * f.length)).take rands.length = rs := by
      rw [← hcs, hra, ← hrs]
      simp
    refine ⟨a ++ a', cs ++ (rs ++ [rl]) ++ b', ?_, ?_, hptl, hol, by simp, fun _ => ?_, ?_⟩
    · unfold layersNum
      rw [← hfl, ← hi]
      exact hseg
    · unfold layersPoint
      simp only []
      rw [← hfl]
      have e1 : (cs ++ (rs ++ [rl]) ++ b').getD (xs.length + 2 * f.length + rands.length) 0 = rl := by
        rw [List.getD_append _ _ _ _ (by simp [hcs, hrs, hra])]; exact g1
      have e2 : ((cs ++ (rs ++ [rl]) ++ b').drop (xs.length + 2 * f.length)).take rands.length = rs := by
        rw [← hcs, hra, ← hrs]
        simp
      have e3 : (cs ++ (rs ++ [rl]) ++ b').drop (xs.length + 2 * f.length + (rands.length + 1)) = b' := by
        have : xs.length + 2 * f.length + (rands.length + 1) = (cs ++ (rs ++ [rl])).length := by
          simp [hcs, hrs, hra]
        rw [this, List.drop_left]
      rw [e1, e2, e3]
      exact hpt
    · by_cases h0 : r = 0
      · obtain ⟨_, -, -, -, -, -, -, -, hle, -, -, -⟩ := sayDotp_inv _ _ _ _ _ _ _ _ h4'
        rw [hcs, hln', List.length_map, hf, if_pos h0] at hle
        rw [hod h0, joinDotp_length _ _ _ _ _ hnd]
        omega
      · exact hodl (by omega)
    · have hs2 : Seg ch tr (t4 ++ [.chal "challenge_r_layer"])
          (xs.length + (if r = 0 then 2 * full.length else 0) + (rands.length + 1)) a (cs ++ (rs ++ [rl])) := by
        rw [← hfl, hra]; exact hs
      rcases ho with ho | ⟨hone, ho⟩
      · left
        unfold badLayers
        rw [hf, hC] at ho
        exact ho.first hs2 hs'.pre
      rcases ho' with ho' | ⟨hone', ho'⟩
      · left
        unfold badLayers
        refine HitT.second hs2 ?_
        beta_reduce
        rw [← hfl, g1, g2, fl, fr]
        exact ho'
      · right
        refine ⟨fun _ => ?_, fun hout hodt => ?_⟩
        · by_cases h0 : r = 0
          · subst h0
            rw [hpt]
            exact hone
          · exact hone' (by omega)
        · obtain ⟨k1, k2⟩ := ho' hout fun _ => hodt (by omega)
          have k3 := ho (by rw [k1, List.map_map]; rfl) (by
            rw [hnd, Option.some.injEq]
            by_cases h0 : r = 0
            · subst h0
              rw [← hod rfl, hodt (by omega), hpt, hf]
              rfl
            · have : row = [] := by rw [hrow, if_neg h0]
              rw [this] at hnd
              have e : nd = [] := by simpa [joinDotp] using hnd.symm
              rw [e, hf, if_neg h0]
              rfl)
          unfold layerTruth at k3
          rw [hC, hf] at k3
          by_cases h0 : r = 0
          · rw [if_pos h0, if_pos h0] at k3
            obtain ⟨k4, k5⟩ := List.append_inj k3 (by simp [hc])
            refine ⟨?_, fun _ => k5⟩
            rw [k4, List.map_map]
            apply List.map_congr_left
            intro x _
            rw [Function.iterate_succ_apply', Function.comp]
          · rw [if_neg h0, if_neg h0] at k3
            refine ⟨?_, fun _ => k2 (by omega)⟩
            rw [k3, List.map_map]
            simp only [halfSums, List.flatMap_nil, List.append_nil]
            apply List.map_congr_left
            intro x _
            rw [Function.iterate_succ_apply', Function.comp]

end Zkp.Sc
