/- Spartan's product circuits: the proof of the batched prover is accepted, and what the verifier gets out of it. -/
import Verif.Model.SpartanSnarkProver
import Verif.Props.SumCheck
import Verif.Props.Multilinear
import Verif.Props.SpartanMemory
import Verif.Props.SpartanComplete

namespace Zkp.Spartan

open Zkp.Ml Zkp.Sc Zkp.Cp

set_option linter.unusedSectionVars false
set_option linter.unusedSimpArgs false

variable {F : Type} [Field F] {G : Type} [AddCommGroup G] [Module F G] [DecidableEq F] [DecidableEq G]

theorem bind_ok {α β : Type} {m : Vf F G α} {f : α → Vf F G β} {tr tr' : Transcript F G} {a : α}
    (h : m tr = .ok (a, tr')) : (m >>= f) tr = f a tr' := by
  show StateT.bind m f tr = _
  simp only [StateT.bind, h]
  rfl

theorem ite_bind {α β : Type} (c : Prop) [Decidable c] (a b : Vf F G α) (f : α → Vf F G β) :
    (if c then a >>= f else b >>= f) = (if c then a else b) >>= f := by split_ifs <;> rfl

/-! ### Halving passes -/

/-- One pass: products of the two halves. -/
def halve (x : List F) : List F := List.zipWith (· * ·) (x.take (x.length / 2)) (x.drop (x.length / 2))

theorem halve_length (x : List F) (k : Nat) (h : x.length = 2 ^ (k + 1)) : (halve x).length = 2 ^ k := by
  have : x.length / 2 = 2 ^ k := by rw [h, pow_succ]; omega
  simp only [halve, List.length_zipWith, List.length_take, List.length_drop, this, h, pow_succ]
  omega

theorem halve_iter_length (x : List F) (k i : Nat) (h : x.length = 2 ^ k) (hi : i ≤ k) :
    (halve^[i] x).length = 2 ^ (k - i) := by
  induction i with
  | zero => simpa using h
  | succ i ih =>
    rw [Function.iterate_succ_apply']
    apply halve_length
    rw [ih (by omega)]
    congr 1
    omega

theorem zip_prod (a b : List F) (h : a.length = b.length) : (List.zipWith (· * ·) a b).prod = a.prod * b.prod := by
  induction a generalizing b with
  | nil => cases b with
    | nil => simp
    | cons _ _ => simp at h
  | cons x a ih => cases b with
    | nil => simp at h
    | cons y b =>
      simp only [List.zipWith_cons_cons, List.prod_cons, ih b (by simpa using h)]
      ring

theorem halve_prod (x : List F) (k : Nat) (h : x.length = 2 ^ (k + 1)) : (halve x).prod = x.prod := by
  have : x.length / 2 = 2 ^ k := by rw [h, pow_succ]; omega
  unfold halve
  rw [zip_prod _ _ (by simp [this, h, pow_succ]; omega), ← List.prod_append, List.take_append_drop]

theorem halve_iter_prod (x : List F) (k i : Nat) (h : x.length = 2 ^ k) (hi : i ≤ k) : (halve^[i] x).prod = x.prod := by
  induction i with
  | zero => rfl
  | succ i ih =>
    rw [Function.iterate_succ_apply', ← ih (by omega)]
    apply halve_prod (k := k - i - 1)
    rw [halve_iter_length x k i h (by omega)]
    congr 1
    omega

theorem halve_end (x : List F) (k : Nat) (h : x.length = 2 ^ k) : mle (halve^[k] x) [] = x.prod := by
  have h1 := halve_iter_length x k k h le_rfl
  have h2 := halve_iter_prod x k k h le_rfl
  rw [Nat.sub_self, pow_zero] at h1
  obtain ⟨y, hy⟩ := List.length_eq_one_iff.1 h1
  rw [hy] at h2 ⊢
  rw [mle_nil, ← h2]
  simp

theorem productLayers_get (k : Nat) : ∀ (x : List F) (i : Nat), x.length = 2 ^ k → i < k →
    (productLayers k x)[i]? = some ((halve^[i] x).take (2 ^ (k - 1 - i)), (halve^[i] x).drop (2 ^ (k - 1 - i))) := by
  induction k with
  | zero => intro x i _ hi; omega
  | succ k ih =>
    intro x i hx hi
    have hh : x.length / 2 = 2 ^ k := by rw [hx, pow_succ]; omega
    have hs : productLayers (k + 1) x = (x.take (2 ^ k), x.drop (2 ^ k)) :: productLayers k (halve x) := by
      rw [productLayers]
      have : ¬ (2 ^ k * 2 < x.length) := by rw [hx, pow_succ]; omega
      simp only [hh, if_neg this, halve]
    rw [hs]
    cases i with
    | zero => simp
    | succ i =>
      rw [List.getElem?_cons_succ, ih (halve x) i (halve_length x k hx) (by omega), Function.iterate_succ_apply]
      have : k + 1 - 1 - (i + 1) = k - 1 - i := by omega
      rw [this]

theorem circuit_left (k : Nat) (x : List F) (i : Nat) (hx : x.length = 2 ^ k) (hi : i < k) :
    (constructProductCircuit x).left[i]? = some ((halve^[i] x).take (2 ^ (k - 1 - i))) := by
  unfold constructProductCircuit
  simp only [hx, Nat.clog_pow 2 k (by norm_num), List.getElem?_map, productLayers_get k x i hx hi, Option.map_some]

theorem circuit_right (k : Nat) (x : List F) (i : Nat) (hx : x.length = 2 ^ k) (hi : i < k) :
    (constructProductCircuit x).right[i]? = some ((halve^[i] x).drop (2 ^ (k - 1 - i))) := by
  unfold constructProductCircuit
  simp only [hx, Nat.clog_pow 2 k (by norm_num), List.getElem?_map, productLayers_get k x i hx hi, Option.map_some]

theorem productLayers_length (k : Nat) : ∀ x : List F, (productLayers k x).length = k := by
  induction k with
  | zero => intro x; rfl
  | succ k ih => intro x; simp [productLayers, ih]

theorem circuit_depth (k : Nat) (x : List F) (hx : x.length = 2 ^ k) : (constructProductCircuit x).left.length = k := by
  unfold constructProductCircuit
  simp [hx, Nat.clog_pow 2 k (by norm_num), productLayers_length]

/-! ### Extensions of halves -/

theorem mle_halves (v : List F) (a : F) (r : List F) :
    mle (v.take (2 ^ r.length)) r + a * (mle (v.drop (2 ^ r.length)) r - mle (v.take (2 ^ r.length)) r) =
      mle v (a :: r) := by
  rw [mle_cons]; ring

theorem evalEq_getD' (r : List F) (j : Nat) (hj : j < 2 ^ r.length) : (evalEq r).getD j 0 = eqWeight r j := by
  rw [evalEq_eq, getD_map_range _ _ hj]

theorem mle_halve (x r : List F) (h : x.length = 2 ^ (r.length + 1)) :
    mle (halve x) r = ∑ j ∈ Finset.range (2 ^ r.length),
      (x.take (2 ^ r.length)).getD j 0 * (x.drop (2 ^ r.length)).getD j 0 * (evalEq r).getD j 0 := by
  have hh : x.length / 2 = 2 ^ r.length := by rw [h, pow_succ]; omega
  unfold mle
  apply Finset.sum_congr rfl
  intro j hj
  have hj := Finset.mem_range.1 hj
  rw [evalEq_getD' _ _ hj]
  congr 1
  have l1 : j < (x.take (2 ^ r.length)).length := by simp [h, pow_succ]; omega
  have l2 : j < (x.drop (2 ^ r.length)).length := by simp [h, pow_succ]; omega
  unfold halve
  rw [hh, List.getD_eq_getElem _ _ (by rw [List.length_zipWith]; omega), List.getElem_zipWith, List.getD_eq_getElem _ _ l1,
    List.getD_eq_getElem _ _ l2]

theorem eqProd (r rands : List F) (h : r.length = rands.length) :
    (List.zipWith (fun x y => x * y + (1 - x) * (1 - y)) r rands).prod = mle (evalEq rands) r := by
  have h1 := eqTau_eq r rands h
  have h2 : (List.zipWith (fun x y => x * y + (1 - x) * (1 - y)) r rands).prod =
      (List.zipWith (fun x y => (1 - x) * (1 - y) + x * y) r rands).prod := by
    congr 2
    funext x y
    ring
  rw [h2, eqXY_sum _ _ h]
  unfold mle
  apply Finset.sum_congr rfl
  intro j hj
  have hj := Finset.mem_range.1 hj
  rw [evalEq_getD' _ _ (by rw [← h]; exact hj)]
  ring

/-! ### Steps of a layer -/

theorem sayPairs_ok (l1 l2 : String) (xs ys : List F) (tr : Transcript F G) :
    ∃ tr', sayPairs l1 l2 xs ys tr = .ok ((), tr') := by
  induction xs generalizing ys tr with
  | nil => exact ⟨tr, by unfold sayPairs; rfl⟩
  | cons x xs ih => cases ys with
    | nil => exact ⟨tr, by unfold sayPairs; rfl⟩
    | cons y ys =>
      obtain ⟨tr', h⟩ := ih ys ((tr ++ [.fr l1 x]) ++ [.fr l2 y])
      exact ⟨tr', by unfold sayPairs; exact h⟩

theorem sayDotp_triples {α : Type} (f g h : α → F) (D : List α) (coeffs : List F) (k : Nat)
    (hk : D.length + k ≤ coeffs.length) (tr : Transcript F G) :
    ∃ tr', sayTriples (D.map f) (D.map g) (D.map h) tr = .ok ((), tr') ∧
      sayDotp coeffs k (D.map f) (D.map g) (D.map h) tr =
        .ok ((List.zipWith (fun d c => c * (f d * g d * h d)) D (coeffs.drop k)).sum, tr') := by
  induction D generalizing k tr with
  | nil => exact ⟨tr, by simp [sayTriples]; rfl, by simp [sayDotp]; rfl⟩
  | cons d D ih =>
    simp only [List.length_cons] at hk
    obtain ⟨tr', h1, h2⟩ := ih (k + 1) (by omega)
      (((tr ++ [.fr "claim_dotp_row" (f d)]) ++ [.fr "claim_dotp_col" (g d)]) ++ [.fr "claim_dotp_val" (h d)])
    refine ⟨tr', by simp only [List.map_cons, sayTriples]; exact h1, ?_⟩
    have hkl : k < coeffs.length := by omega
    have hr : Runs (sayDotp coeffs k ((d :: D).map f) ((d :: D).map g) ((d :: D).map h)) tr fun a t =>
        a = (List.zipWith (fun d c => c * (f d * g d * h d)) (d :: D) (coeffs.drop k)).sum ∧ t = tr' := by
      simp only [List.map_cons, sayDotp]
      refine Runs.say.bind fun _ _ e => ?_
      subst e
      refine Runs.say.bind fun _ _ e => ?_
      subst e
      refine Runs.say.bind fun _ _ e => ?_
      subst e
      refine (Runs.orPanic (List.getElem?_eq_getElem hkl)).bind fun _ _ e => ?_
      obtain ⟨rfl, rfl⟩ := e
      refine Runs.bind (P := fun a t => a = _ ∧ t = tr') ⟨_, _, h2, rfl, rfl⟩ fun a t e => ?_
      obtain ⟨rfl, rfl⟩ := e
      refine Runs.pure ⟨?_, rfl⟩
      rw [List.drop_eq_getElem_cons hkl, List.zipWith_cons_cons, List.sum_cons]
      ring
    obtain ⟨a, t, e, rfl, rfl⟩ := hr
    exact e

theorem pair_even {α β : Type} (a b : α → β) (l : List α) (i : Nat) :
    (l.flatMap fun d => [a d, b d])[2 * i]? = l[i]?.map a := by
  induction l generalizing i with
  | nil => simp
  | cons d l ih => cases i with
    | zero => simp
    | succ i =>
      have : 2 * (i + 1) = 2 * i + 2 := by ring
      simp [this, ih]

theorem pair_odd {α β : Type} (a b : α → β) (l : List α) (i : Nat) :
    (l.flatMap fun d => [a d, b d])[2 * i + 1]? = l[i]?.map b := by
  induction l generalizing i with
  | nil => simp
  | cons d l ih => cases i with
    | zero => simp
    | succ i =>
      have : 2 * (i + 1) + 1 = 2 * i + 1 + 2 := by ring
      simp [this, ih]

theorem pair_length {α β : Type} (a b : α → β) (l : List α) : (l.flatMap fun d => [a d, b d]).length = 2 * l.length := by
  induction l with
  | nil => rfl
  | cons d l ih => simp [ih]; ring

theorem joinDotp_pairs {α : Type} (r : F) (a a' b b' c c' : α → F) (l : List α) :
    joinDotp r (l.flatMap fun d => [a d, a' d]) (l.flatMap fun d => [b d, b' d]) (l.flatMap fun d => [c d, c' d]) =
      some (l.flatMap fun d => [a d + r * (a' d - a d), b d + r * (b' d - b d), c d + r * (c' d - c d)]) := by
  unfold joinDotp
  rw [pair_length, Nat.mul_div_cancel_left _ (by norm_num)]
  cases l with
  | nil => rfl
  | cons d0 l0 =>
    obtain ⟨l, hl⟩ : ∃ l, l = d0 :: l0 := ⟨_, rfl⟩
    rw [← hl]
    rw [mapM_some _ (fun i => [a (l.getD i d0) + r * (a' (l.getD i d0) - a (l.getD i d0)),
      b (l.getD i d0) + r * (b' (l.getD i d0) - b (l.getD i d0)), c (l.getD i d0) + r * (c' (l.getD i d0) - c (l.getD i d0))])]
    · rw [Option.map_some, List.flatMap_def]
      congr 2
      apply List.ext_getElem (by simp)
      intro i h1 h2
      simp at h1 h2
      simp [h1]
    · intro i hi
      have hi := List.mem_range.1 hi
      simp only [pair_even, pair_odd, List.getElem?_eq_getElem hi, Option.map_some, Option.bind_eq_bind, Option.bind_some,
        List.getD_eq_getElem _ _ hi]

theorem dotpSum_eq (n : Nat) (d : Dotp F) (h1 : d.1.length = n) (h2 : d.2.1.length = n) (h3 : d.2.2.length = n) :
    dotpSum n d = some (sumDotp d) := by
  unfold dotpSum evaluateDotProductCircuit sumDotp
  rw [if_pos ⟨h1.symm, h2.symm, h3.symm⟩, if_neg (by simp [h1, h2, h3])]

theorem cubicRounds_length (ch : Oracle F G) (polys : List (List F)) (claim : F) (rs : List F) (fin : F)
    (tr tr' : Transcript F G) (h : cubicRounds ch polys claim tr = .ok ((rs, fin), tr')) : rs.length = polys.length := by
  induction polys generalizing claim rs fin tr tr' with
  | nil =>
    obtain ⟨h, _⟩ := pure_inv h
    have := congrArg Prod.fst h
    simp only at this
    subst this
    rfl
  | cons p ps ih =>
    unfold cubicRounds at h
    obtain ⟨_, _, _, h⟩ := bind_inv h
    obtain ⟨_, _, _, h⟩ := bind_inv h
    obtain ⟨_, _, _, h⟩ := bind_inv h
    obtain ⟨⟨rs', f'⟩, _, h1, h⟩ := bind_inv h
    obtain ⟨h, _⟩ := pure_inv h
    have := congrArg Prod.fst h
    simp only at this
    subst this
    simp [ih _ _ _ _ _ h1]

theorem cubicVerify_length (ch : Oracle F G) (polys : List (List F)) (n : Nat) (claim : F) (rs : List F) (fin : F)
    (tr tr' : Transcript F G) (h : cubicVerify ch polys n claim tr = .ok ((rs, fin), tr')) : rs.length = n := by
  unfold cubicVerify at h
  obtain ⟨_, _, h1, h⟩ := bind_inv h
  obtain ⟨hn, rfl⟩ := ensure_inv h1
  rw [cubicRounds_length _ _ _ _ _ _ _ h]
  simpa using hn

/-- Both halves of all dot products. -/
def halfList (full : List (Dotp F)) : List (Dotp F) := full.flatMap fun d => [(halfDotp d).1, (halfDotp d).2]

/-- The values of the halves, as the verifier receives them. -/
def halfSums (full : List (Dotp F)) : List F := full.flatMap fun d => [sumDotp (halfDotp d).1, sumDotp (halfDotp d).2]

/-- The extensions of the dot products at a point, as the verifier returns them. -/
def dotpAt (full : List (Dotp F)) (r : List F) : List F := full.flatMap fun d => [mle d.1 r, mle d.2.1 r, mle d.2.2 r]

theorem halfList_map {β : Type} (full : List (Dotp F)) (f : Dotp F → β) :
    (halfList full).map f = full.flatMap fun d => [f (halfDotp d).1, f (halfDotp d).2] := by
  simp [halfList, List.map_flatMap]

theorem halfList_len (k : Nat) (full : List (Dotp F))
    (hfull : ∀ d ∈ full, d.1.length = 2 ^ (k + 1) ∧ d.2.1.length = 2 ^ (k + 1) ∧ d.2.2.length = 2 ^ (k + 1)) :
    ∀ d ∈ halfList full, d.1.length = 2 ^ k ∧ d.2.1.length = 2 ^ k ∧ d.2.2.length = 2 ^ k := by
  intro d hd
  obtain ⟨e, he, hd⟩ := List.mem_flatMap.1 hd
  obtain ⟨h1, h2, h3⟩ := hfull e he
  have hh : 2 ^ (k + 1) / 2 = 2 ^ k := by rw [pow_succ]; omega
  have hs : 2 ^ (k + 1) - 2 ^ k = 2 ^ k := by rw [pow_succ]; omega
  have hle : 2 ^ k ≤ 2 ^ (k + 1) := by rw [pow_succ]; omega
  simp only [List.mem_cons, List.not_mem_nil, or_false, halfDotp] at hd
  rcases hd with rfl | rfl <;> simp [h1, h2, h3, hh, hs, hle]

set_option maxHeartbeats 1600000 in
theorem layers_complete (h2 : (2 : F) ≠ 0) (h3 : (3 : F) ≠ 0) (ch : Oracle F G) (k : Nat) (xs : List (List F))
    (hne : xs ≠ []) (hxs : ∀ x ∈ xs, x.length = 2 ^ k) (full : List (Dotp F))
    (hfull : ∀ d ∈ full, d.1.length = 2 ^ k ∧ d.2.1.length = 2 ^ k ∧ d.2.2.length = 2 ^ k) :
    ∀ i, i ≤ k → ∀ (rands : List F), rands.length = k - i → ∀ (cd : List F) (tr : Transcript F G),
      Runs (layersProve ch (xs.map constructProductCircuit) (halfList full) i
          (xs.map fun x => mle (halve^[i] x) rands) rands) tr fun out tr' =>
        out.1.length = i ∧ out.2.2.length = k ∧ (i = 0 → out.2.2 = rands) ∧ ∀ proof : CircuitEvalProof F,
          (0 < i → proof.dotpRow = out.2.1.1 ∧ proof.dotpCol = out.2.1.2.1 ∧ proof.dotpVal = out.2.1.2.2) →
          layersVerify ch proof (halfSums full) xs.length (k - 1) out.1 (k - i)
              (xs.map fun x => mle (halve^[i] x) rands) cd rands tr =
            .ok ((xs.map (mle · out.2.2), if i = 0 then cd else dotpAt full out.2.2, out.2.2), tr') := by
  intro i
  induction i with
  | zero =>
    intro _ rands hr cd tr
    refine Runs.pure ⟨rfl, by simpa using hr, fun _ => rfl, fun proof _ => ?_⟩
    rfl
  | succ i ih =>
    intro hi rands hr cd tr
    obtain ⟨m, hm⟩ : ∃ m, m = k - (i + 1) := ⟨_, rfl⟩
    rw [← hm] at hr
    have hm1 : k - 1 - i = m := by omega
    have hki : k - i = m + 1 := by omega
    obtain ⟨D, hD⟩ : ∃ D, D = if i = 0 then halfList full else [] := ⟨_, rfl⟩
    have hDl : ∀ d ∈ D, d.1.length = 2 ^ m ∧ d.2.1.length = 2 ^ m ∧ d.2.2.length = 2 ^ m := by
      intro d hd
      rw [hD] at hd
      split_ifs at hd with h0
      · exact halfList_len m full (by have : k = m + 1 := by omega
                                      rw [← this]; exact hfull) d hd
      · simp at hd
    have hlen : ∀ x ∈ xs, (halve^[i] x).length = 2 ^ (m + 1) := fun x hx => by
      rw [halve_iter_length x k i (hxs x hx) (by omega), hki]
    have hpow : 2 ^ (m + 1) = 2 ^ m + 2 ^ m := by ring
    have eL : (xs.map constructProductCircuit).mapM (fun c => c.left[i]?) =
        some (xs.map fun x => (halve^[i] x).take (2 ^ m)) := by
      rw [List.mapM_map]
      exact mapM_some _ _ _ fun x hx => by
        rw [Function.comp, circuit_left k x i (hxs x hx) (by omega), hm1]
    have eR : (xs.map constructProductCircuit).mapM (fun c => c.right[i]?) =
        some (xs.map fun x => (halve^[i] x).drop (2 ^ m)) := by
      rw [List.mapM_map]
      exact mapM_some _ _ _ fun x hx => by
        rw [Function.comp, circuit_right k x i (hxs x hx) (by omega), hm1]
    have eS : D.mapM (dotpSum (evalEq rands).length) = some (D.map sumDotp) := by
      refine mapM_some _ _ _ fun d hd => ?_
      rw [evalEq_length, hr]
      exact dotpSum_eq _ d (hDl d hd).1 (hDl d hd).2.1 (hDl d hd).2.2
    have hstep : ∀ x ∈ xs, mle (halve^[i + 1] x) rands = ∑ j ∈ Finset.range (2 ^ m),
        ((halve^[i] x).take (2 ^ m)).getD j 0 * ((halve^[i] x).drop (2 ^ m)).getD j 0 * (evalEq rands).getD j 0 := by
      intro x hx
      rw [Function.iterate_succ_apply', mle_halve _ _ (by rw [hr]; exact hlen x hx), hr]
    -- challenges
    obtain ⟨coeffs, tr1, hcs, hcl⟩ := Succeeds.challenges ch "rand_coeffs_next_layer" (xs.length + D.length) tr
    obtain ⟨B, hB⟩ : ∃ B : Batch F, B = ⟨xs.map fun x => (halve^[i] x).take (2 ^ m),
      xs.map fun x => (halve^[i] x).drop (2 ^ m), evalEq rands, D.map (·.1), D.map (·.2.1), D.map (·.2.2)⟩ := ⟨_, rfl⟩
    have hclaim : (List.zipWith (· * ·) ((xs.map fun x => mle (halve^[i + 1] x) rands) ++ D.map sumDotp) coeffs).sum =
        cubicClaim m B coeffs := by
      rw [zipWith_append_drop _ _ _ _ (by simp [hcl]), List.sum_append, hB]
      unfold cubicClaim
      simp only [List.length_map, List.zip_map', List.zipWith_map_left]
      congr 2
      · apply List.ext_getElem (by simp)
        intro j _ _
        simp only [List.getElem_zipWith]
        rw [hstep _ (List.getElem_mem _), mul_comm]
      · apply List.ext_getElem (by simp)
        intro j _ _
        simp only [List.getElem_zipWith, sumDotp]
        rw [(hDl _ (List.getElem_mem _)).1, sum_range_map, mul_comm]
    obtain ⟨polys, rs, tr2, hcp, _, hcv⟩ := C52_spartan_cubic h2 h3 ch m B coeffs (by simp [hB]) (by
        intro x hx
        simp only [hB, List.mem_append, List.mem_map] at hx
        rcases hx with (((⟨y, hy, rfl⟩ | ⟨y, hy, rfl⟩) | ⟨d, hd, rfl⟩) | ⟨d, hd, rfl⟩) | ⟨d, hd, rfl⟩
        · simp [hlen y hy, hpow]
        · simp [hlen y hy, hpow]
        · exact (hDl d hd).1
        · exact (hDl d hd).2.1
        · exact (hDl d hd).2.2) (by simp [hB, evalEq_length, hr]) (by simp [hB]) (by simp [hB]) (by simp [hB, hcl]) tr1
    have hrs : rs.length = m := cubicVerify_length _ _ _ _ _ _ _ _ hcv
    rw [← hclaim] at hcp hcv
    simp only [hB, List.map_map, Function.comp_def] at hcp hcv
    obtain ⟨tr3, hpairs⟩ := sayPairs_ok (G := G) "claim_prod_left" "claim_prod_right"
      (xs.map fun x => mle ((halve^[i] x).take (2 ^ m)) rs) (xs.map fun x => mle ((halve^[i] x).drop (2 ^ m)) rs) tr2
    obtain ⟨tr4, htrip, hdotp⟩ := sayDotp_triples (G := G) (fun d : Dotp F => mle d.1 rs) (fun d => mle d.2.1 rs)
      (fun d => mle d.2.2 rs) D coeffs xs.length (by omega) tr3
    obtain ⟨rl, hrl⟩ : ∃ rl, rl = ch (tr4 ++ [.chal "challenge_r_layer"]) := ⟨_, rfl⟩
    have hnext : List.zipWith (fun a b => a + rl * (b - a)) (xs.map fun x => mle ((halve^[i] x).take (2 ^ m)) rs)
        (xs.map fun x => mle ((halve^[i] x).drop (2 ^ m)) rs) = xs.map fun x => mle (halve^[i] x) (rl :: rs) := by
      rw [List.zipWith_map, List.zipWith_self]
      apply List.map_congr_left
      intro x _
      rw [← hrs]
      exact mle_halves _ _ _
    have hIH := ih (by omega) (rl :: rs) (by simp [hrs]; omega)
      (if i = 0 then dotpAt full (rl :: rs) else []) (tr4 ++ [.chal "challenge_r_layer"])
    obtain ⟨⟨layers, final, rands'⟩, tr6, hlp, hll, hrl', hrl0, hlv⟩ := hIH
    simp only at hlp hll hrl' hrl0 hlv
    -- the prover
    unfold layersProve
    refine (Runs.orPanic eL).bind fun _ tr e => ?_
    obtain ⟨rfl, rfl⟩ := e
    refine (Runs.orPanic eR).bind fun _ tr e => ?_
    obtain ⟨rfl, rfl⟩ := e
    refine (Runs.ensure (by
      simp only [List.zip_map', List.all_map, List.all_eq_true, Function.comp, decide_eq_true_eq]
      intro x hx
      simp [hlen x hx, hpow])).bind fun _ tr e => ?_
    subst e
    simp only []
    refine (Runs.ensure (by
      cases xs with
      | nil => exact absurd rfl hne
      | cons x xs => simp [hlen x (by simp), hpow, evalEq_length, hr])).bind fun _ tr e => ?_
    subst e
    rw [← hD]
    refine (Runs.orPanic eS).bind fun _ tr e => ?_
    obtain ⟨rfl, rfl⟩ := e
    have hcl' : ((xs.map fun x => mle (halve^[i + 1] x) rands) ++ D.map sumDotp).length = xs.length + D.length := by simp
    simp only [hcl']
    refine Runs.bind (P := fun a t => a = coeffs ∧ t = tr1) ⟨_, _, hcs, rfl, rfl⟩ fun coeffs tr1 e => ?_
    obtain ⟨rfl, rfl⟩ := e
    have hclog : Nat.clog 2 (evalEq rands).length = m := by rw [evalEq_length, hr, Nat.clog_pow 2 m (by norm_num)]
    rw [hclog]
    refine Runs.bind (P := fun a t => a = _ ∧ t = tr2) ⟨_, _, hcp, rfl, rfl⟩ fun a tr2 e => ?_
    obtain ⟨rfl, rfl⟩ := e
    simp only []
    refine Runs.bind (P := fun _ t => t = tr3) ⟨_, _, hpairs, rfl⟩ fun a tr3 e => ?_
    subst e
    refine Runs.bind (P := fun _ t => t = tr4) ⟨_, _, htrip, rfl⟩ fun a tr4 e => ?_
    subst e
    refine Runs.challenge.bind fun rl' _ e => ?_
    obtain ⟨e, rfl⟩ := e
    rw [e.trans hrl.symm]
    rw [hnext]
    refine Runs.bind (P := fun a t => a = (layers, final, rands') ∧ t = tr6) ⟨_, _, hlp, rfl, rfl⟩ fun a tr6 e => ?_
    obtain ⟨rfl, rfl⟩ := e
    refine Runs.pure ⟨by simp [hll], hrl', fun h => absurd h (Nat.succ_ne_zero i), fun proof hproof => ?_⟩
    obtain ⟨p1, p2, p3⟩ := hproof (by omega)
    simp only at p1 p2 p3
    -- the verifier
    have hlast : k - (i + 1) = k - 1 ↔ i = 0 := by omega
    have hv : Runs (layersVerify ch proof (halfSums full) xs.length (k - 1)
        (⟨polys, xs.map fun x => mle ((halve^[i] x).take (2 ^ m)) rs, xs.map fun x => mle ((halve^[i] x).drop (2 ^ m)) rs⟩ :: layers)
        (k - (i + 1)) (xs.map fun x => mle (halve^[i + 1] x) rands) cd rands) tr fun a t =>
          a = (xs.map (mle · rands'), dotpAt full rands', rands') ∧ t = tr6 := by
      unfold layersVerify
      have hcl2 : (if k - (i + 1) = k - 1 then (xs.map fun x => mle (halve^[i + 1] x) rands) ++ halfSums full
          else xs.map fun x => mle (halve^[i + 1] x) rands) =
          (xs.map fun x => mle (halve^[i + 1] x) rands) ++ D.map sumDotp := by
        rw [hD]
        by_cases h0 : i = 0
        · rw [if_pos (hlast.2 h0), if_pos h0, halfList_map]; rfl
        · rw [if_neg (fun h => h0 (hlast.1 h)), if_neg h0]; simp
      simp only []
      rw [hcl2, hcl']
      refine Runs.bind (P := fun a t => a = coeffs ∧ t = tr1) ⟨_, _, hcs, rfl, rfl⟩ fun coeffs tr1 e => ?_
      obtain ⟨rfl, rfl⟩ := e
      rw [← hm]
      refine Runs.bind (P := fun a t => a = _ ∧ t = tr2) ⟨_, _, hcv, rfl, rfl⟩ fun a tr2 e => ?_
      obtain ⟨rfl, rfl⟩ := e
      simp only []
      refine (Runs.ensure (by simp)).bind fun _ _ e => ?_
      subst e
      refine (Runs.ensure (by simp)).bind fun _ _ e => ?_
      subst e
      refine Runs.bind (P := fun _ t => t = tr3) ⟨_, _, hpairs, rfl⟩ fun a tr3 e => ?_
      subst e
      refine (Runs.ensure (by simp [hr, hrs])).bind fun _ tr3 e => ?_
      subst e
      rw [eqProd rs rands (by rw [hr, hrs])]
      have hlast' : m = k - 1 ↔ i = 0 := by omega
      have hdot : Runs (if m = k - 1 then sayDotp coeffs (xs.map fun x => mle ((halve^[i] x).take (2 ^ m)) rs).length
          proof.dotpRow proof.dotpCol proof.dotpVal else pure 0) tr3 fun a t =>
          a = (List.zipWith (fun d c => c * (mle d.1 rs * mle d.2.1 rs * mle d.2.2 rs)) D (coeffs.drop xs.length)).sum ∧
            t = tr4 := by
        by_cases h0 : i = 0
        · rw [if_pos (hlast'.2 h0), p1, p2, p3, if_pos h0, List.length_map]
          exact ⟨_, _, hdotp, rfl, rfl⟩
        · rw [if_neg (fun h => h0 (hlast'.1 h))]
          have hD0 : D = [] := by rw [hD, if_neg h0]
          rw [hD0] at hdotp ⊢
          exact ⟨_, _, hdotp, rfl, rfl⟩
      rw [ite_bind]
      refine Runs.bind hdot fun a tr4 e => ?_
      obtain ⟨rfl, rfl⟩ := e
      refine (Runs.ensure (by
        simp only [cubicFinal, List.length_map, List.zip_map', List.zipWith_map_left, List.zipWith_map_right]
        rw [List.zipWith_comm]
        exact decide_eq_true rfl)).bind fun _ tr4 e => ?_
      subst e
      refine Runs.challenge.bind fun rl' _ e => ?_
      obtain ⟨e, rfl⟩ := e
      rw [e.trans hrl.symm, hnext]
      have hjoin : Runs (if m = k - 1 then orPanic (joinDotp rl proof.dotpRow proof.dotpCol proof.dotpVal) else pure [] :
          Vf F G (List F)) (tr4 ++ [.chal "challenge_r_layer"]) fun a t =>
          a = (if i = 0 then dotpAt full (rl :: rs) else []) ∧ t = tr4 ++ [.chal "challenge_r_layer"] := by
        by_cases h0 : i = 0
        · rw [if_pos (hlast'.2 h0), if_pos h0]
          refine Runs.orPanic ?_
          rw [p1, p2, p3, if_pos h0, hD, if_pos h0, halfList_map, halfList_map, halfList_map, joinDotp_pairs]
          congr 1
          unfold dotpAt
          apply List.flatMap_congr
          intro d hd
          obtain ⟨q1, q2, q3⟩ := hfull d hd
          have hk2 : 2 ^ k / 2 = 2 ^ rs.length := by
            have : k = rs.length + 1 := by omega
            rw [this, pow_succ]; omega
          simp only [halfDotp, q1, hk2, mle_halves]
        · rw [if_neg (fun h => h0 (hlast'.1 h)), if_neg h0]
          exact Runs.pure ⟨rfl, rfl⟩
      rw [ite_bind]
      refine Runs.bind hjoin fun a t5 e => ?_
      obtain ⟨rfl, rfl⟩ := e
      have hlv' := hlv proof (fun h0 => by
        have : i ≠ 0 := by omega
        simp only [if_neg this] at p1 p2 p3
        exact ⟨p1, p2, p3⟩)
      rw [show m + 1 = k - i by omega]
      refine ⟨_, _, hlv', ?_, rfl⟩
      by_cases h0 : i = 0
      · rw [if_pos h0, if_pos h0, hrl0 h0]
      · rw [if_neg h0]
    obtain ⟨a, t, e, rfl, rfl⟩ := hv
    rw [e, if_neg (Nat.succ_ne_zero i)]

/-- The product circuits: the proof of the batched prover is accepted with the true products and the true halves of the
dot products, and the verifier gets the extensions of the input lists at the point that the prover returns. -/
theorem circuitEval_complete (h2 : (2 : F) ≠ 0) (h3 : (3 : F) ≠ 0) (ch : Oracle F G) (k : Nat) (hk : 0 < k)
    (xs : List (List F)) (hne : xs ≠ []) (hxs : ∀ x ∈ xs, x.length = 2 ^ k) (full : List (Dotp F))
    (hfull : ∀ d ∈ full, d.1.length = 2 ^ k ∧ d.2.1.length = 2 ^ k ∧ d.2.2.length = 2 ^ k) (tr : Transcript F G) :
    Runs (circuitEvalProve ch (xs.map constructProductCircuit) (halfList full)) tr fun out tr' =>
      out.2.length = k ∧ circuitEvalVerify ch out.1 (xs.map List.prod) (halfSums full) (2 ^ k) tr =
        .ok ((xs.map (mle · out.2), dotpAt full out.2, out.2), tr') := by
  have hprod : (xs.map fun x => mle (halve^[k] x) []) = xs.map List.prod :=
    List.map_congr_left fun x hx => halve_end x k (hxs x hx)
  have hk2 : 2 ≤ 2 ^ k := by
    calc 2 = 2 ^ 1 := rfl
      _ ≤ 2 ^ k := Nat.pow_le_pow_right (by norm_num) hk
  unfold circuitEvalProve
  obtain ⟨x0, hx0⟩ : ∃ x0, xs[0]? = some x0 := by
    cases xs with
    | nil => exact absurd rfl hne
    | cons x _ => exact ⟨x, rfl⟩
  refine (Runs.orPanic (a := constructProductCircuit x0) (by simp [hx0])).bind fun _ tr e => ?_
  obtain ⟨rfl, rfl⟩ := e
  refine (Runs.orPanic (a := xs.map List.prod) (by
    rw [List.mapM_map]
    exact mapM_some _ _ _ fun x hx => C51_partial x (by rw [hxs x hx]; exact hk2))).bind fun _ tr e => ?_
  obtain ⟨rfl, rfl⟩ := e
  rw [circuit_depth k x0 (hxs x0 (List.mem_of_getElem? hx0)), ← hprod]
  refine (layers_complete h2 h3 ch k xs hne hxs full hfull k le_rfl [] (by simp) [] tr).bind fun out tr' h => ?_
  obtain ⟨layers, dotp, rands⟩ := out
  obtain ⟨a1, a2, _, a3⟩ := h
  simp only at a1 a2 a3
  refine Runs.pure ⟨a2, ?_⟩
  have hv := a3 ⟨layers, dotp.1, dotp.2.1, dotp.2.2⟩ (fun _ => ⟨rfl, rfl, rfl⟩)
  rw [Nat.sub_self, if_neg (by omega)] at hv
  unfold circuitEvalVerify
  rw [Nat.clog_pow 2 k (by norm_num), List.length_map]
  rw [bind_ok (a := ()) (tr' := tr) (by simp [a1, ensure]; rfl)]
  exact hv

/-! ### Folded openings -/

theorem combineRows_nil (poly ry : List F) :
    (combineRows poly [] ry : Vf F G _) = combineRows poly (List.replicate (2 ^ (Nat.clog 2 poly.length / 2)) 0) ry := by
  unfold combineRows
  have : ¬ (2 ^ (Nat.clog 2 poly.length / 2) = 0) := by positivity
  simp [this]

theorem innerProductProve_nil (ch : Oracle F G) (params : PcParams G) (poly ry : List F) (ryBlind eval d rDelta rBeta : F)
    (blinds : List (F × F)) : innerProductProve ch params poly [] ry ryBlind eval d rDelta rBeta blinds =
      innerProductProve ch params poly (List.replicate (2 ^ (Nat.clog 2 poly.length / 2)) 0) ry ryBlind eval d rDelta rBeta
        blinds := by
  unfold innerProductProve
  rw [combineRows_nil]

/-- A finished opening of a plain commitment is accepted. -/
theorem open_accepted (ch : Oracle F G) (params : PcParams G) (hh : params.genN.h = params.gen1.h) (label : String)
    (cs rands poly : List F) (rand : OpenRand F) (comms : List G) (tr0 tr0' tr tr' : Transcript F G)
    (hc : packPlain params poly tr0 = .ok (comms, tr0')) (proof : DotProof F G)
    (hp : openProve ch params label cs rands (mle poly (cs ++ rands)) poly rand tr = .ok (proof, tr')) :
    openFolded ch params label cs rands (mle poly (cs ++ rands)) comms proof tr = .ok ((), tr') := by
  unfold openProve at hp
  obtain ⟨_, _, h1, hp⟩ := bind_inv hp
  obtain rfl := say_inv h1
  obtain ⟨⟨pf, cy⟩, _, h1, hp⟩ := bind_inv hp
  obtain ⟨rfl, rfl⟩ := pure_inv hp
  rw [innerProductProve_nil] at h1
  obtain ⟨hcy, hv⟩ := C57_evaluation_spartan ch params hh poly _ _ (by simp) comms tr0 tr0' hc _ _ _ _ _ _ _ _ _ h1
  unfold openFolded
  rw [bind_ok (a := ()) rfl]
  rw [← hcy, bind_ok hv]
  rfl

theorem packPlain_ok (params : PcParams G) (poly : List F) (m : Nat) (hp : poly.length = 2 ^ m) (tr : Transcript F G) :
    ∃ comms, packPlain params poly tr = .ok (comms, tr) := by
  have hs : Nat.clog 2 poly.length = m := by rw [hp, Nat.clog_pow 2 m (by norm_num)]
  have hl : poly.length = 2 ^ (m / 2) * 2 ^ (m - m / 2) := by
    rw [hp, ← pow_add]; congr 1; omega
  have : Runs (packPlain params poly) tr fun _ t => t = tr := by
    unfold packPlain packCommit
    simp only [hs]
    refine (Runs.ensure (by simpa using hl)).bind fun _ tr e => ?_
    subst e
    refine (Runs.ensure (by simp)).bind fun _ tr e => ?_
    subst e
    exact Runs.pure rfl
  obtain ⟨a, t, e, rfl⟩ := this
  exact ⟨a, e⟩

/-- An opening finishes when no challenge is zero and there are enough generators. -/
theorem open_runs (ch : Oracle F G) (hch : ∀ t, ch t ≠ 0) (params : PcParams G) (label : String)
    (cs rands poly : List F) (e : F) (hp : poly.length = 2 ^ (cs ++ rands).length)
    (hg : 2 ^ ((cs ++ rands).length - (cs ++ rands).length / 2) ≤ params.genN.generators.length)
    (h1 : params.gen1.generators ≠ []) (rand : OpenRand F)
    (hb : (cs ++ rands).length - (cs ++ rands).length / 2 ≤ rand.bullet.length) (tr : Transcript F G) :
    ∃ proof tr', openProve ch params label cs rands e poly rand tr = .ok (proof, tr') := by
  have : Runs (openProve ch params label cs rands e poly rand) tr fun _ _ => True := by
    unfold openProve
    rw [innerProductProve_nil]
    refine Runs.say.bind fun _ _ _ => ?_
    refine (innerProductProve_runs ch hch params poly _ _ _ hp (by rw [hp, Nat.clog_pow 2 _ (by norm_num)]; simp) rfl hg h1
      _ _ _ _ _ _ hb _).bind fun _ _ _ => Runs.pure trivial
  obtain ⟨a, t, e, _⟩ := this
  exact ⟨a, t, e⟩

theorem foldBot (cs : List F) : ∀ v : List F, v.length = 2 ^ cs.length →
    cs.reverse.foldlM (fun e c => boundPolyVarBot e c) v = some [mle v cs] := by
  induction cs using List.reverseRecOn with
  | nil =>
    intro v hv
    obtain ⟨y, rfl⟩ := List.length_eq_one_iff.1 (by simpa using hv)
    simp [mle_nil]
  | append_singleton r a ih =>
    intro v hv
    obtain ⟨w, hw, hl, hm⟩ := C46_bound v r a (by simpa using hv)
    rw [List.reverse_append, List.reverse_singleton, List.singleton_append, List.foldlM_cons, hw]
    show r.reverse.foldlM _ w = _
    rw [ih w hl, hm]

theorem mle_pad (v r : List F) (k : Nat) : mle (v ++ List.replicate k 0) r = mle v r := by
  apply mle_congr
  intro i _
  rw [List.getD_eq_getElem?_getD, List.getD_eq_getElem?_getD, List.getElem?_append]
  split_ifs with h
  · rfl
  · rw [List.getElem?_replicate, List.getElem?_eq_none (by omega)]
    split_ifs <;> rfl

/-- The values are folded into their extension at the challenges. -/
theorem foldEvals_ok (ch : Oracle F G) (l1 l2 : String) (evals : List F) (tr : Transcript F G) :
    ∃ cs tr', foldEvals ch l1 l2 evals tr = .ok ((cs, mle evals cs), tr') ∧ cs.length = Nat.clog 2 evals.length := by
  have hlen : (evals ++ List.replicate (padTo evals.length - evals.length) 0).length = padTo evals.length := by
    have : evals.length ≤ padTo evals.length := Nat.le_pow_clog (by norm_num) _
    simp; omega
  have : Runs (foldEvals ch l1 l2 evals) tr fun out _ => out.2 = mle evals out.1 ∧ out.1.length = Nat.clog 2 evals.length := by
    unfold foldEvals
    simp only [hlen]
    refine Runs.say.bind fun _ _ e => ?_
    refine Runs.bind (P := fun a _ => a.length = Nat.clog 2 evals.length) ?_ fun cs t h => ?_
    · obtain ⟨a, t, h1, h2⟩ := Succeeds.challenges ch l2 (Nat.clog 2 (padTo evals.length)) _
      exact ⟨a, t, h1, h2.trans (by unfold padTo; rw [Nat.clog_pow 2 _ (by norm_num)])⟩
    · refine (Runs.orPanic (foldBot cs _ (by rw [hlen, h]; rfl))).bind fun _ _ e => ?_
      obtain ⟨rfl, rfl⟩ := e
      exact Runs.pure ⟨mle_pad _ _ _, h⟩
  obtain ⟨⟨cs, e⟩, t, h, he, h2⟩ := this
  simp only at he h2
  subst he
  exact ⟨cs, t, h, h2⟩

theorem flatten_getD (lists : List (List F)) (n i j : Nat) (hl : ∀ l ∈ lists, l.length = n) (hj : j < n) :
    lists.flatten.getD (i * n + j) 0 = (lists.getD i []).getD j 0 := by
  induction lists generalizing i with
  | nil => simp
  | cons l lists ih =>
    have h0 := hl l (by simp)
    cases i with
    | zero =>
      simp only [List.flatten_cons, Nat.zero_mul, Nat.zero_add, List.getD_cons_zero]
      rw [List.getD_eq_getElem?_getD, List.getElem?_append_left (by omega), ← List.getD_eq_getElem?_getD]
    | succ i =>
      rw [List.flatten_cons, List.getD_cons_succ, ← ih i (fun l hl' => hl l (by simp [hl'])), List.getD_eq_getElem?_getD,
        List.getElem?_append_right (by rw [h0]; nlinarith), ← List.getD_eq_getElem?_getD]
      congr 1
      rw [h0]
      have : (i + 1) * n = i * n + n := by ring
      omega

/-- Several tables in one: the extension of the whole at `cs ++ r` is the extension at `cs` of their extensions at `r`. -/
theorem mle_flatten (lists : List (List F)) (cs r : List F) (hl : ∀ l ∈ lists, l.length = 2 ^ r.length) (k : Nat) :
    mle (lists.flatten ++ List.replicate k 0) (cs ++ r) = mle (lists.map (mle · r)) cs := by
  rw [mle_pad, mle_append]
  unfold mle
  refine Finset.sum_congr rfl fun i _ => ?_
  have : (lists.map fun v => ∑ i ∈ Finset.range (2 ^ r.length), v.getD i 0 * eqWeight r i).getD i 0 =
      ∑ j ∈ Finset.range (2 ^ r.length), (lists.getD i []).getD j 0 * eqWeight r j := by
    rw [List.getD_eq_getElem?_getD, List.getElem?_map, List.getD_eq_getElem?_getD]
    cases lists[i]? <;> simp
  rw [this, Finset.sum_mul]
  refine Finset.sum_congr rfl fun j hj => ?_
  rw [flatten_getD lists _ i j hl (Finset.mem_range.1 hj)]
  ring

/-! ### Extensions of the hashes -/

theorem eqWeight_sum (r : List F) : ∑ i ∈ Finset.range (2 ^ r.length), eqWeight r i = 1 := by
  induction r with
  | nil => simp [eqWeight_nil]
  | cons a r ih =>
    rw [List.length_cons, pow_succ, mul_two, Finset.sum_range_add]
    rw [Finset.sum_congr rfl fun i hi => eqWeight_lo a r i (Finset.mem_range.1 hi),
      Finset.sum_congr rfl fun i hi => eqWeight_hi a r i (Finset.mem_range.1 hi), ← Finset.mul_sum, ← Finset.mul_sum, ih]
    ring

theorem mle_range (f : Nat → F) (n : Nat) (r : List F) (h : n = 2 ^ r.length) :
    mle ((List.range n).map f) r = ∑ i ∈ Finset.range (2 ^ r.length), f i * eqWeight r i := by
  unfold mle
  refine Finset.sum_congr rfl fun i hi => ?_
  rw [getD_map_range _ _ (by rw [h]; exact Finset.mem_range.1 hi)]

/-- The extension of the positions. -/
theorem mle_positions (r : List F) : ∑ i ∈ Finset.range (2 ^ r.length), (i : F) * eqWeight r i =
    ((List.range r.length).map fun i => r.getD i 0 * ((2 ^ (r.length - i - 1) : Nat) : F)).sum := by
  induction r with
  | nil => simp
  | cons a r ih =>
    rw [List.length_cons, pow_succ, mul_two, Finset.sum_range_add, List.range_succ_eq_map, List.map_cons, List.sum_cons,
      List.map_map]
    have e1 : ∑ i ∈ Finset.range (2 ^ r.length), (i : F) * eqWeight (a :: r) i =
        (1 - a) * ∑ i ∈ Finset.range (2 ^ r.length), (i : F) * eqWeight r i := by
      rw [Finset.mul_sum]
      refine Finset.sum_congr rfl fun i hi => ?_
      rw [eqWeight_lo a r i (Finset.mem_range.1 hi)]; ring
    have e2 : ∑ i ∈ Finset.range (2 ^ r.length), ((2 ^ r.length + i : Nat) : F) * eqWeight (a :: r) (2 ^ r.length + i) =
        (2 : F) ^ r.length * a * ∑ i ∈ Finset.range (2 ^ r.length), eqWeight r i +
          a * ∑ i ∈ Finset.range (2 ^ r.length), (i : F) * eqWeight r i := by
      rw [Finset.mul_sum, Finset.mul_sum, ← Finset.sum_add_distrib]
      refine Finset.sum_congr rfl fun i hi => ?_
      rw [eqWeight_hi a r i (Finset.mem_range.1 hi)]; push_cast; ring
    have e : (List.range r.length).map ((fun i => (a :: r).getD i 0 * ((2 ^ (r.length + 1 - i - 1) : Nat) : F)) ∘ Nat.succ) =
        (List.range r.length).map fun i => r.getD i 0 * ((2 ^ (r.length - i - 1) : Nat) : F) := by
      apply List.map_congr_left
      intro i _
      simp only [Function.comp, List.getD_cons_succ]
      congr 4
      omega
    rw [e1, e2, e, ← ih, eqWeight_sum]
    simp only [List.getD_cons_zero, Nat.sub_zero, Nat.add_sub_cancel]
    push_cast
    ring

theorem mle_list (v r : List F) : mle v r = ∑ i ∈ Finset.range (2 ^ r.length), v.getD i 0 * eqWeight r i := rfl

end Zkp.Spartan
