/- The sums of the three sum-checks of a Hyrax layer. -/
import Verif.Proof.HyraxProve
import Verif.Props.Hyrax

set_option linter.unusedSectionVars false

namespace Zkp.Hx

open Zkp.Ml Zkp.Spartan Zkp.Gkr Zkp.Cp Zkp.Sc Polynomial

variable {F : Type} [Field F] {G : Type} [AddCommGroup G] [Module F G] [DecidableEq F] [DecidableEq G]

/-! ### Degrees -/

theorem sum_deg {α : Type} {d : Nat} (l : List α) (g : α → (Nat → F) → F) (h : ∀ a ∈ l, SummandDeg d (g a)) :
    SummandDeg d fun v => (l.map fun a => g a v).sum := by
  intro lo hi
  induction l with
  | nil => exact ⟨0, by simp, by simp⟩
  | cons a l ih =>
    obtain ⟨p, hp, ep⟩ := ih fun b hb => h b (by simp [hb])
    obtain ⟨q, hq, eq⟩ := h a (by simp) lo hi
    exact ⟨q + p, add_deg hq hp, fun x => by simp [ep, eq]⟩

theorem sumFirst_deg (gates : List Gate) : SummandDeg 3 (sumFirst gates : (Nat → F) → F) := by
  unfold sumFirst
  refine sum_deg gates.zipIdx (fun x v => v x.2 * opFirst x.1.op (v (gates.length + x.1.left)) (v (gates.length + x.1.right)))
    fun x _ lo hi => ?_
  simp only [opFirst]
  split
  · exact ⟨line (lo x.2) (hi x.2) * (line (lo (gates.length + x.1.left)) (hi (gates.length + x.1.left)) +
      line (lo (gates.length + x.1.right)) (hi (gates.length + x.1.right))),
      (mul_deg (line_deg _ _) (add_deg (line_deg _ _) (line_deg _ _))).trans (by omega), fun y => by
        simp only [eval_mul, eval_add, line_eval]⟩
  · exact ⟨line (lo x.2) (hi x.2) * (line (lo (gates.length + x.1.left)) (hi (gates.length + x.1.left)) *
      line (lo (gates.length + x.1.right)) (hi (gates.length + x.1.right))),
      mul_deg (line_deg _ _) (mul_deg (line_deg _ _) (line_deg _ _)), fun y => by
        simp only [eval_mul, line_eval]⟩

theorem const_deg (a : F) : (C a : F[X]).natDegree ≤ 0 := by simp

theorem sumLeft_deg (gates : List Gate) (p vs : List F) : SummandDeg 2 (sumLeft gates p vs) := by
  unfold sumLeft
  refine sum_deg gates.zipIdx (fun x v => v x.2 * p.getD x.2 0 * opLater x.1.op (v gates.length) (vs.getD x.1.right 0))
    fun x _ lo hi => ?_
  simp only [opLater]
  split
  · exact ⟨line (lo x.2) (hi x.2) * C (p.getD x.2 0) * (line (lo gates.length) (hi gates.length) + C (vs.getD x.1.right 0)),
      mul_deg (a := 1) (mul_deg (line_deg _ _) (const_deg _)) (add_deg (line_deg _ _) ((const_deg _).trans (by omega))),
      fun y => by simp only [eval_mul, eval_add, line_eval, eval_C]⟩
  · split
    · exact ⟨line (lo x.2) (hi x.2) * C (p.getD x.2 0) * (line (lo gates.length) (hi gates.length) * C (vs.getD x.1.right 0)),
        mul_deg (a := 1) (mul_deg (line_deg _ _) (const_deg _)) (mul_deg (b := 0) (line_deg _ _) (const_deg _)),
        fun y => by simp only [eval_mul, line_eval, eval_C]⟩
    · exact ⟨0, by simp, by simp⟩

theorem sumRight_deg (gates : List Gate) (p : List F) (x : F) : SummandDeg 2 (sumRight gates p x) := by
  unfold sumRight
  refine sum_deg gates.zipIdx (fun t v => v t.2 * p.getD t.2 0 * opLater t.1.op x (v gates.length))
    fun t _ lo hi => ?_
  simp only [opLater]
  split
  · exact ⟨line (lo t.2) (hi t.2) * C (p.getD t.2 0) * (C x + line (lo gates.length) (hi gates.length)),
      mul_deg (a := 1) (mul_deg (line_deg _ _) (const_deg _)) (add_deg ((const_deg _).trans (by omega)) (line_deg _ _)),
      fun y => by simp only [eval_mul, eval_add, line_eval, eval_C]⟩
  · split
    · exact ⟨line (lo t.2) (hi t.2) * C (p.getD t.2 0) * (C x * line (lo gates.length) (hi gates.length)),
        mul_deg (a := 1) (mul_deg (line_deg _ _) (const_deg _)) (mul_deg (a := 0) (b := 1) (const_deg _) (line_deg _ _)),
        fun y => by simp only [eval_mul, line_eval, eval_C]⟩
    · exact ⟨0, by simp, by simp⟩

/-! ### Gates by number -/

/-- The gates of a layer are numbered from zero. -/
def Numbered (gates : List Gate) : Prop := ∀ i (h : i < gates.length), gates[i].g = i

theorem Numbered.get {gates : List Gate} (h : Numbered gates) {g : Gate} (hg : g ∈ gates) :
    ∃ hl : g.g < gates.length, gates[g.g] = g := by
  obtain ⟨i, hi, rfl⟩ := List.mem_iff_getElem.1 hg
  have e := h i hi
  exact ⟨by rw [e]; exact hi, by simp only [e]⟩

theorem Numbered.zipIdx {gates : List Gate} (h : Numbered gates) (f : Gate → Nat → F) :
    (gates.zipIdx.map fun x => f x.1 x.2).sum = (gates.map fun g => f g g.g).sum := by
  have : gates.zipIdx.map (fun x => f x.1 x.2) = gates.map fun g => f g g.g := by
    apply List.ext_getElem (by simp)
    intro i h1 h2
    simp only [List.length_map, List.length_zipIdx] at h1
    simp [h i h1]
  rw [this]

theorem sumFirst_eq {gates : List Gate} (h : Numbered gates) (v : Nat → F) : sumFirst gates v =
    (gates.map fun g => v g.g * opFirst g.op (v (gates.length + g.left)) (v (gates.length + g.right))).sum :=
  h.zipIdx fun g i => v i * opFirst g.op (v (gates.length + g.left)) (v (gates.length + g.right))

theorem sumLeft_eq {gates : List Gate} (h : Numbered gates) (p vs : List F) (v : Nat → F) : sumLeft gates p vs v =
    (gates.map fun g => v g.g * p.getD g.g 0 * opLater g.op (v gates.length) (vs.getD g.right 0)).sum :=
  h.zipIdx fun g i => v i * p.getD i 0 * opLater g.op (v gates.length) (vs.getD g.right 0)

theorem sumRight_eq {gates : List Gate} (h : Numbered gates) (p : List F) (x : F) (v : Nat → F) : sumRight gates p x v =
    (gates.map fun g => v g.g * p.getD g.g 0 * opLater g.op x (v gates.length)).sum :=
  h.zipIdx fun g i => v i * p.getD i 0 * opLater g.op x (v gates.length)

theorem sum_swap (gates : List Gate) (N : Nat) (h : Nat → Gate → F) :
    ∑ t ∈ Finset.range N, (gates.map (h t)).sum = (gates.map fun g => ∑ t ∈ Finset.range N, h t g).sum := by
  induction gates with
  | nil => simp
  | cons g gs ih => simp [Finset.sum_add_distrib, ih]

theorem map_sum_congr {gates : List Gate} {f h : Gate → F} (e : ∀ g ∈ gates, f g = h g) :
    (gates.map f).sum = (gates.map h).sum := by rw [List.map_congr_left e]

/-! ### The tables -/

theorem tempVec_length (qa ql qr : List F) (u0 u1 : F) (hq : ql.length = qr.length) :
    (tempVec qa ql qr u0 u1).length = 2 ^ ql.length := by simp [tempVec, evalEq_length, hq]

theorem tempVec_getD (qa ql qr : List F) (u0 u1 : F) (hq : ql.length = qr.length) (i : Nat) (hi : i < 2 ^ ql.length) :
    (tempVec qa ql qr u0 u1).getD i [] = (evalEq qa).map fun e => e * (eqWeight ql i * u0 + eqWeight qr i * u1) := by
  have h1 : i < (evalEq ql).length := by rwa [evalEq_length]
  have h2 : i < (evalEq qr).length := by rwa [evalEq_length, ← hq]
  have e1 : (evalEq ql)[i] = eqWeight ql i := by simp [evalEq_eq]
  have e2 : (evalEq qr)[i] = eqWeight qr i := by simp [evalEq_eq]
  rw [tempVec, List.getD_eq_getElem _ _ (by simp [h1, h2])]
  simp [e1, e2]

theorem scaled_getD (qa : List F) (c : F) (t : Nat) (ht : t < 2 ^ qa.length) :
    ((evalEq qa).map fun e => e * c).getD t 0 = eqWeight qa t * c := by
  rw [evalEq_eq, List.map_map, getD_map_range _ _ ht]; rfl

theorem scaled_mle (qa : List F) (c : F) (rs : List F) (h : rs.length = qa.length) :
    mle ((evalEq qa).map fun e => e * c) rs = mle (evalEq qa) rs * c := by
  simp only [mle, Finset.sum_mul]
  refine Finset.sum_congr rfl fun i hi => ?_
  have hi' : i < 2 ^ qa.length := by rw [← h]; exact Finset.mem_range.1 hi
  rw [scaled_getD _ _ _ hi', evalEq_eq, getD_map_range _ _ hi']; ring

theorem app_lo {α : Type} (a b : List α) (i : Nat) (d : α) (h : i < a.length) : (a ++ b).getD i d = a.getD i d := by
  rw [List.getD_append _ _ _ _ h]

theorem app_hi {α : Type} (a b : List α) (i : Nat) (d : α) : (a ++ b).getD (a.length + i) d = b.getD i d := by
  rw [List.getD_append_right _ _ _ _ (by omega)]; simp

theorem getD_map_mle (ts : List (List F)) (rs : List F) (i : Nat) :
    (ts.map fun t => mle t rs).getD i 0 = mle (ts.getD i []) rs := by
  rw [List.getD_eq_getElem?_getD, List.getElem?_map, List.getD_eq_getElem?_getD]
  cases ts[i]? with
  | none => simp [mle]
  | some t => rfl

/-- The gates of a layer and the layer below. -/
structure LayerOk (gates : List Gate) (evals : List (List F)) (qa ql qr : List F) (logG : Nat) : Prop where
  num : Numbered gates
  len : gates.length = 2 ^ ql.length
  same : ql.length = qr.length
  op : ∀ g ∈ gates, g.op = 0 ∨ g.op = 1
  nodes : ∀ g ∈ gates, g.left < 2 ^ logG ∧ g.right < 2 ^ logG
  count : evals.length = 2 ^ logG
  tabs : ∀ t ∈ evals, t.length = 2 ^ qa.length

theorem LayerOk.gLt {gates : List Gate} {evals : List (List F)} {qa ql qr : List F} {logG : Nat}
    (h : LayerOk gates evals qa ql qr logG) {g : Gate} (hg : g ∈ gates) : g.g < 2 ^ ql.length := by
  rw [← h.len]; exact (h.num.get hg).1

/-- What is claimed of the layer: a combination of the values of its gates. -/
def gateClaim (gates : List Gate) (evals : List (List F)) (qa ql qr : List F) (u0 u1 : F) : F :=
  (gates.map fun g => (eqWeight ql g.g * u0 + eqWeight qr g.g * u1) * ∑ t ∈ Finset.range (2 ^ qa.length),
    eqWeight qa t * opFirst g.op ((evals.getD g.left []).getD t 0) ((evals.getD g.right []).getD t 0)).sum

theorem first_tables {gates : List Gate} {evals : List (List F)} {qa ql qr : List F} {logG : Nat}
    (h : LayerOk gates evals qa ql qr logG) (u0 u1 : F) : TablesOk qa.length (tempVec qa ql qr u0 u1 ++ evals) := by
  constructor
  · intro e
    have := congrArg List.length e
    rw [List.length_append, tempVec_length _ _ _ _ _ h.same] at this
    have := Nat.two_pow_pos ql.length
    simp only [List.length_nil] at *
    omega
  · intro t ht
    rcases List.mem_append.1 ht with ht | ht
    · obtain ⟨i, hi, rfl⟩ := List.mem_iff_getElem.1 ht
      rw [tempVec_length _ _ _ _ _ h.same] at hi
      have := tempVec_getD qa ql qr u0 u1 h.same i hi
      rw [List.getD_eq_getElem _ _ (by rwa [tempVec_length _ _ _ _ _ h.same])] at this
      rw [this]; simp [evalEq_length]
    · exact h.tabs t ht

theorem first_total {gates : List Gate} {evals : List (List F)} {qa ql qr : List F} {logG : Nat}
    (h : LayerOk gates evals qa ql qr logG) (u0 u1 : F) :
    total (sumFirst gates) (tempVec qa ql qr u0 u1 ++ evals) = gateClaim gates evals qa ql qr u0 u1 := by
  have hT := tempVec_length qa ql qr u0 u1 h.same
  rw [total, tableLen_eq (first_tables h u0 u1)]
  simp only [sumFirst_eq h.num]
  rw [sum_swap, gateClaim]
  refine map_sum_congr fun g hg => ?_
  rw [Finset.mul_sum]
  refine Finset.sum_congr rfl fun t ht => ?_
  have ht := Finset.mem_range.1 ht
  have hlen : gates.length = (tempVec qa ql qr u0 u1).length := by rw [hT, h.len]
  simp only [cells]
  rw [app_lo _ _ _ _ (by rw [hT]; exact h.gLt hg), tempVec_getD _ _ _ _ _ h.same _ (h.gLt hg), scaled_getD _ _ _ ht, hlen,
    app_hi, app_hi]
  ring

/-- The values of the layer below after the first sum-check. -/
def nodeVals (evals : List (List F)) (rs : List F) : List F := evals.map fun t => mle t rs

theorem first_final {gates : List Gate} {evals : List (List F)} {qa ql qr : List F} {logG : Nat}
    (h : LayerOk gates evals qa ql qr logG) (u0 u1 : F) (rs : List F) (hr : rs.length = qa.length) :
    sumFirst gates (fun i => ((tempVec qa ql qr u0 u1 ++ evals).map fun t => mle t rs).getD i 0) =
      (gates.map fun g => (mle (evalEq qa) rs * (eqWeight ql g.g * u0 + eqWeight qr g.g * u1)) *
        opFirst g.op ((nodeVals evals rs).getD g.left 0) ((nodeVals evals rs).getD g.right 0)).sum := by
  have hT := tempVec_length qa ql qr u0 u1 h.same
  have hlen : gates.length = (tempVec qa ql qr u0 u1).length := by rw [hT, h.len]
  rw [sumFirst_eq h.num]
  refine map_sum_congr fun g hg => ?_
  simp only [nodeVals, getD_map_mle]
  rw [app_lo _ _ _ _ (by rw [hT]; exact h.gLt hg), tempVec_getD _ _ _ _ _ h.same _ (h.gLt hg), scaled_mle _ _ _ hr, hlen,
    app_hi, app_hi]

/-- The indicator tables of the nodes. -/
theorem convertToBit_eq (i n : Nat) (hi : i < 2 ^ n) : convertToBit i n = some (bitsOf n i : List F) := by
  have hl : (Nat.digits 2 i).length ≤ n := by
    rcases Nat.eq_zero_or_pos i with rfl | hp
    · simp
    · exact (Nat.digits_length_le_iff (by norm_num) i).2 hi
  unfold convertToBit
  simp only [List.length_map, hl, if_true]
  congr 1
  apply List.ext_getElem
  · simp [bitsOf]; omega
  · intro j h1 h2
    have hj : j < n := by simpa [bitsOf] using h2
    rw [List.getElem_reverse]
    simp only [bitsOf, List.getElem_map, List.getElem_range, List.length_append, List.length_map, List.length_replicate]
    have e : (Nat.digits 2 i).length + (n - (Nat.digits 2 i).length) - 1 - j = n - 1 - j := by omega
    simp only [e]
    have hd := Nat.getD_digits i (n - 1 - j) (b := 2) (by norm_num)
    by_cases hlt : n - 1 - j < (Nat.digits 2 i).length
    · rw [List.getElem_append_left (by simpa using hlt)]
      rw [List.getD_eq_getElem _ _ hlt] at hd
      simp only [List.getElem_map, hd, Nat.testBit_eq_decide_div_mod_eq, decide_eq_true_eq]
      rcases Nat.mod_two_eq_zero_or_one (i / 2 ^ (n - 1 - j)) with e0 | e0 <;> simp [e0]
    · rw [List.getElem_append_right (by simpa using hlt)]
      rw [List.getD_eq_default _ _ (by omega)] at hd
      simp only [List.getElem_replicate, Nat.testBit_eq_decide_div_mod_eq, decide_eq_true_eq, ← hd]
      simp

theorem node_tables (logG : Nat) :
    ((List.range (2 ^ logG)).mapM fun i => (convertToBit i logG).map fun b => evalEq (b : List F)) =
      some ((List.range (2 ^ logG)).map fun i => evalEq (bitsOf logG i : List F)) :=
  mapM_some _ _ _ fun i hi => by rw [convertToBit_eq i logG (List.mem_range.1 hi)]; rfl

/-- One of the two families of tables of the last two sum-checks. -/
def nodeTabs (gates : List Gate) (pos : Gate → Nat) (logG : Nat) : List (List F) :=
  gates.map fun g => ((List.range (2 ^ logG)).map fun i => evalEq (bitsOf logG i : List F)).getD (pos g) []

theorem nodeTabs_getD {gates : List Gate} (h : Numbered gates) (pos : Gate → Nat) (logG : Nat) {g : Gate} (hg : g ∈ gates)
    (hp : pos g < 2 ^ logG) : (nodeTabs gates pos logG : List (List F)).getD g.g [] = evalEq (bitsOf logG (pos g)) := by
  obtain ⟨hl, e⟩ := h.get hg
  rw [nodeTabs, List.getD_eq_getElem _ _ (by simpa using hl), List.getElem_map, e, List.getD_eq_getElem _ _ (by simpa using hp)]
  simp

theorem node_cell (logG i b : Nat) (hi : i < 2 ^ logG) (hb : b < 2 ^ logG) :
    (evalEq (bitsOf logG i : List F)).getD b 0 = if b = i then 1 else 0 := by
  have : (bitsOf logG i : List F).length = logG := by simp [bitsOf]
  rw [evalEq_eq, this, getD_map_range _ _ hb, eqWeight_bits logG i b hi hb]

theorem node_mle (logG i : Nat) (hi : i < 2 ^ logG) (r : List F) (hr : r.length = logG) :
    mle (evalEq (bitsOf logG i : List F)) r = eqWeight r i := by
  rw [mle, hr]
  rw [Finset.sum_eq_single i]
  · rw [node_cell _ _ _ hi hi]; simp
  · intro b hb hne
    rw [node_cell _ _ _ hi (Finset.mem_range.1 hb), if_neg hne, zero_mul]
  · intro hn; exact absurd (Finset.mem_range.2 hi) hn

theorem later_tables (gates : List Gate) (pos : Gate → Nat) (logG : Nat) (hp : ∀ g ∈ gates, pos g < 2 ^ logG) (vs : List F)
    (hv : vs.length = 2 ^ logG) : TablesOk logG (nodeTabs gates pos logG ++ [vs]) := by
  refine ⟨by simp, fun t ht => ?_⟩
  rcases List.mem_append.1 ht with ht | ht
  · obtain ⟨g, hg, rfl⟩ := List.mem_map.1 ht
    rw [List.getD_eq_getElem _ _ (by simpa using hp g hg)]
    simp [evalEq_length, bitsOf]
  · rw [List.mem_singleton.1 ht, hv]

theorem opLater_eq {op : Nat} (h : op = 0 ∨ op = 1) (l r : F) : opLater op l r = opFirst op l r := by
  rcases h with rfl | rfl <;> simp [opLater, opFirst]

theorem nodeTabs_length (gates : List Gate) (pos : Gate → Nat) (logG : Nat) :
    (nodeTabs gates pos logG : List (List F)).length = gates.length := by simp [nodeTabs]

theorem left_total {gates : List Gate} (h : Numbered gates) (logG : Nat) (hl : ∀ g ∈ gates, g.left < 2 ^ logG)
    (p vs : List F) (hv : vs.length = 2 ^ logG) :
    total (sumLeft gates p vs) (nodeTabs gates (fun g => g.left) logG ++ [vs]) =
      (gates.map fun g => p.getD g.g 0 * opLater g.op (vs.getD g.left 0) (vs.getD g.right 0)).sum := by
  rw [total, tableLen_eq (later_tables gates _ logG hl vs hv)]
  simp only [sumLeft_eq h]
  rw [sum_swap]
  refine map_sum_congr fun g hg => ?_
  rw [Finset.sum_eq_single g.left]
  · simp only [cells]
    rw [app_lo _ _ _ _ (by rw [nodeTabs_length]; exact (h.get hg).1), nodeTabs_getD h _ _ hg (hl g hg),
      node_cell _ _ _ (hl g hg) (hl g hg), if_pos rfl, one_mul]
    have := app_hi (nodeTabs gates (fun g => g.left) logG) [vs] 0 []
    rw [nodeTabs_length, Nat.add_zero] at this
    rw [this]; rfl
  · intro b hb hne
    simp only [cells]
    rw [app_lo _ _ _ _ (by rw [nodeTabs_length]; exact (h.get hg).1), nodeTabs_getD h _ _ hg (hl g hg),
      node_cell _ _ _ (hl g hg) (Finset.mem_range.1 hb), if_neg hne]
    ring
  · intro hn; exact absurd (Finset.mem_range.2 (hl g hg)) hn

theorem right_total {gates : List Gate} (h : Numbered gates) (logG : Nat) (hl : ∀ g ∈ gates, g.right < 2 ^ logG)
    (p vs : List F) (x : F) (hv : vs.length = 2 ^ logG) :
    total (sumRight gates p x) (nodeTabs gates (fun g => g.right) logG ++ [vs]) =
      (gates.map fun g => p.getD g.g 0 * opLater g.op x (vs.getD g.right 0)).sum := by
  rw [total, tableLen_eq (later_tables gates _ logG hl vs hv)]
  simp only [sumRight_eq h]
  rw [sum_swap]
  refine map_sum_congr fun g hg => ?_
  rw [Finset.sum_eq_single g.right]
  · simp only [cells]
    rw [app_lo _ _ _ _ (by rw [nodeTabs_length]; exact (h.get hg).1), nodeTabs_getD h _ _ hg (hl g hg),
      node_cell _ _ _ (hl g hg) (hl g hg), if_pos rfl, one_mul]
    have := app_hi (nodeTabs gates (fun g => g.right) logG) [vs] 0 []
    rw [nodeTabs_length, Nat.add_zero] at this
    rw [this]; rfl
  · intro b hb hne
    simp only [cells]
    rw [app_lo _ _ _ _ (by rw [nodeTabs_length]; exact (h.get hg).1), nodeTabs_getD h _ _ hg (hl g hg),
      node_cell _ _ _ (hl g hg) (Finset.mem_range.1 hb), if_neg hne]
    ring
  · intro hn; exact absurd (Finset.mem_range.2 (hl g hg)) hn

theorem later_values {gates : List Gate} (h : Numbered gates) (pos : Gate → Nat) (logG : Nat)
    (hp : ∀ g ∈ gates, pos g < 2 ^ logG) (vs r : List F) (hr : r.length = logG) :
    (∀ g ∈ gates, ((nodeTabs gates pos logG ++ [vs]).map fun t => mle t r).getD g.g 0 = eqWeight r (pos g)) ∧
      ((nodeTabs gates pos logG ++ [vs]).map fun t => mle t r)[gates.length]? = some (mle vs r) := by
  constructor
  · intro g hg
    rw [getD_map_mle, app_lo _ _ _ _ (by rw [nodeTabs_length]; exact (h.get hg).1), nodeTabs_getD h _ _ hg (hp g hg),
      node_mle _ _ (hp g hg) _ hr]
  · rw [List.getElem?_map, List.getElem?_append_right (by rw [nodeTabs_length])]
    simp [nodeTabs_length]

end Zkp.Hx
