/- C54, C55: layered circuits of Libra and Hyrax. -/
import Verif.Model.Layered
import Verif.Proof.Multilinear
import Verif.Proof.SumCheck
import Verif.Proof.F17

namespace Zkp.Gkr

open Zkp.Ml Zkp.Spartan Zkp.Sc

set_option linter.unusedSectionVars false
set_option linter.unusedSimpArgs false

variable {F : Type} [Field F]

/-! ### C54: the layout of the input layer -/

/-- The layout that the verifiers assume: the witness, padded, then the public inputs, padded. -/
def layout (size : Nat) (inputs aux : List F) : List F :=
  (aux ++ List.replicate (size - aux.length) 0) ++ (inputs ++ List.replicate (size - inputs.length) 0)

theorem inputNew_bitSize (ni na : Nat) : (inputNew ni na).bitSize = Nat.clog 2 (max na ni) + 1 := by
  simp only [inputNew, padTo]
  rw [← pow_succ, Nat.clog_pow 2 _ (by decide)]

theorem inputNew_count (ni na : Nat) : (inputNew ni na).gatesCount = 2 ^ (inputNew ni na).bitSize := by
  rw [inputNew_bitSize]; simp only [inputNew, padTo]; rw [pow_succ]

/-- Both kinds of values fit. -/
theorem fits_input (ni na : Nat) : ni ≤ 2 ^ Nat.clog 2 (max na ni) ∧ na ≤ 2 ^ Nat.clog 2 (max na ni) := by
  have := Nat.le_pow_clog (b := 2) (by decide) (max na ni)
  omega

/-- What the code computes: each part is padded by the length of the other one. -/
theorem C54_actual (ni na : Nat) (inputs aux : List F) (hi : inputs.length ≤ ni) (ha : aux.length ≤ na) :
    inputValues (inputNew ni na).bitSize inputs aux =
      .ok (aux ++ List.replicate (2 ^ Nat.clog 2 (max na ni) - inputs.length) 0 ++ inputs ++
        List.replicate (2 ^ Nat.clog 2 (max na ni) - aux.length) 0) := by
  have h := fits_input ni na
  rw [inputNew_bitSize]
  unfold inputValues
  rw [if_neg (by omega)]
  simp only [Nat.add_sub_cancel]
  rw [if_pos (by omega)]

/-- With as many inputs as witness values the layout is the one that the verifiers assume, and its
multilinear extension is the combination that they compute from the two halves.

Partial: the full claim is for all counts; it is false (`C54_violated`). -/
theorem C54_partial (ni na : Nat) (inputs aux : List F) (hi : inputs.length ≤ ni) (ha : aux.length ≤ na)
    (h : inputs.length = aux.length) :
    inputValues (inputNew ni na).bitSize inputs aux = .ok (layout (2 ^ Nat.clog 2 (max na ni)) inputs aux) ∧
    ∀ r : List F, r.length = Nat.clog 2 (max na ni) → ∀ x : F,
      mle (layout (2 ^ Nat.clog 2 (max na ni)) inputs aux) (x :: r) = (1 - x) * mle aux r + x * mle inputs r := by
  have hf := fits_input ni na
  constructor
  · rw [C54_actual ni na inputs aux hi ha, layout, h]; simp
  · intro r hr x
    have hz : ∀ (v : List F) (k : Nat), mle (v ++ List.replicate k 0) r = mle v r := by
      intro v k
      apply mle_congr
      intro i _
      by_cases hv : i < v.length
      · rw [List.getD_append _ _ _ _ hv]
      · rw [List.getD_append_right _ _ _ _ (by omega), List.getD_eq_default v 0 (by omega)]
        by_cases hk : i - v.length < k
        · simp [List.getD_eq_getElem?_getD, hk]
        · simp [List.getD_eq_getElem?_getD, hk]
    have l1 : (aux ++ List.replicate (2 ^ r.length - aux.length) 0).length = 2 ^ r.length := by
      rw [hr]; simp; omega
    rw [mle_cons, layout, ← hr, List.take_left' l1, List.drop_left' l1, hz, hz]

/-- Three inputs and three witness values. -/
example : inputValues (inputNew 3 3).bitSize ([1, 2, 3] : List F17) [4, 5, 6] = .ok [4, 5, 6, 0, 1, 2, 3, 0] := by
  rw [(C54_partial 3 3 [1, 2, 3] [4, 5, 6] (by simp) (by simp) rfl).1]
  have : Nat.clog 2 (max 3 3) = 2 := by decide
  rw [this]; rfl

/-- C54 fails: with fewer inputs than witness values the layout is another one whenever the first public
input is not zero (as for the constant one): the input is not at the start of the upper half. -/
theorem C54_violated (ni na : Nat) (inputs aux : List F) (x : F) (hx : inputs[0]? = some x) (hx0 : x ≠ 0)
    (hi : inputs.length ≤ ni) (ha : aux.length ≤ na) (h : inputs.length < aux.length) :
    inputValues (inputNew ni na).bitSize inputs aux ≠ .ok (layout (2 ^ Nat.clog 2 (max na ni)) inputs aux) := by
  have hf := fits_input ni na
  rw [C54_actual ni na inputs aux hi ha]
  intro e
  have e := Except.ok.inj e
  have hi : inputs.length ≤ 2 ^ Nat.clog 2 (max na ni) := by omega
  have ha : aux.length ≤ 2 ^ Nat.clog 2 (max na ni) := by omega
  generalize 2 ^ Nat.clog 2 (max na ni) = size at *
  have hl : 0 < inputs.length := by
    by_contra hc
    have : inputs = [] := List.length_eq_zero_iff.1 (by omega)
    simp [this] at hx
  have e1 := congrArg (·[size]?) e
  have lhs : (aux ++ List.replicate (size - inputs.length) 0 ++ inputs ++ List.replicate (size - aux.length) 0)[size]? = some 0 := by
    rw [List.append_assoc, List.getElem?_append_left (by simp; omega),
      List.getElem?_append_right ha, List.getElem?_replicate, if_pos (by omega)]
  have rhs : (layout size inputs aux)[size]? = some x := by
    rw [layout, List.getElem?_append_right (by simp; omega)]
    have : size - (aux ++ List.replicate (size - aux.length) 0).length = 0 := by simp; omega
    rw [this, List.getElem?_append_left hl, hx]
  simp only [lhs, rhs] at e1
  exact hx0 (Option.some.inj e1).symm

/-- One input, three witness values: the input ends up at the end. -/
example : inputValues (inputNew 1 3).bitSize ([1] : List F17) [4, 5, 6] = .ok [4, 5, 6, 0, 0, 0, 1, 0] ∧
    layout 4 ([1] : List F17) [4, 5, 6] = [4, 5, 6, 0, 1, 0, 0, 0] := by
  constructor
  · rw [C54_actual 1 3 [1] [4, 5, 6] (by simp) (by simp)]
    have : Nat.clog 2 (max 3 1) = 2 := by decide
    rw [this]; rfl
  · rfl

example : inputValues (inputNew 1 3).bitSize ([1] : List F17) [4, 5, 6] ≠ .ok (layout (2 ^ Nat.clog 2 (max 3 1)) [1] [4, 5, 6]) :=
  C54_violated 1 3 [1] [4, 5, 6] 1 rfl (by decide) (by simp) (by simp) (by simp)

/-- Exactly when the layout is right for all values: when there are no public inputs, or as many as witness
values. (With more inputs than witness values they begin in the lower half.) -/
theorem C54_exact [DecidableEq F] [Nontrivial F] (ni na li la : Nat) (hi : li ≤ ni) (ha : la ≤ na) :
    (∀ inputs aux : List F, inputs.length = li → aux.length = la →
      inputValues (inputNew ni na).bitSize inputs aux = .ok (layout (2 ^ Nat.clog 2 (max na ni)) inputs aux)) ↔
    li = 0 ∨ li = la := by
  constructor
  · intro h
    by_contra hc
    push Not at hc
    have h1 := h (List.replicate li 1) (List.replicate la 0) (by simp) (by simp)
    rcases Nat.lt_or_gt_of_ne hc.2 with hlt | hgt
    · exact C54_violated ni na (List.replicate li 1) (List.replicate la 0) 1
        (by rw [List.getElem?_replicate, if_pos (by omega)]) one_ne_zero (by simpa using hi) (by simpa using ha)
        (by simpa using hlt) h1
    · have hf := fits_input ni na
      rw [C54_actual ni na _ _ (by simpa using hi) (by simpa using ha)] at h1
      have e := Except.ok.inj h1
      have hi' : li ≤ 2 ^ Nat.clog 2 (max na ni) := by omega
      generalize 2 ^ Nat.clog 2 (max na ni) = size at *
      have e1 := congrArg (·[la + (size - li)]?) e
      have lhs : (List.replicate la 0 ++ List.replicate (size - (List.replicate li (1 : F)).length) 0 ++
          List.replicate li (1 : F) ++ List.replicate (size - (List.replicate la (0 : F)).length) 0)[la + (size - li)]? =
            some 1 := by
        rw [List.getElem?_append_left (by simp; omega), List.getElem?_append_right (by simp), List.getElem?_replicate,
          if_pos (by simp; omega)]
      have rhs : (layout size (List.replicate li 1) (List.replicate la (0 : F)))[la + (size - li)]? = some 0 := by
        rw [layout, List.getElem?_append_left (by simp; omega), List.getElem?_append_right (by simp),
          List.getElem?_replicate, if_pos (by simp; omega)]
      simp only [lhs, rhs] at e1
      exact one_ne_zero (Option.some.inj e1)
  · intro h inputs aux h1 h2
    rcases h with h | h
    · obtain rfl : inputs = [] := List.length_eq_zero_iff.1 (by omega)
      rw [C54_actual ni na [] aux (by simp) (by omega), layout]
      simp only [List.length_nil, Nat.sub_zero, List.append_nil, List.nil_append, List.append_assoc,
        List.replicate_append_replicate]
      rw [Nat.add_comm]
    · exact (C54_partial ni na inputs aux (by omega) (by omega) (by omega)).1

/-- Three inputs and one witness value. -/
example : ¬ ∀ inputs aux : List F17, inputs.length = 3 → aux.length = 1 →
    inputValues (inputNew 3 1).bitSize inputs aux = .ok (layout (2 ^ Nat.clog 2 (max 1 3)) inputs aux) := by
  rw [C54_exact 3 1 3 1 (by decide) (by decide)]
  decide

/-! ### C55: construction and evaluation -/

/-- A gate description is legal over a layer with `n` values. -/
def Legal (n : Nat) (g : Nat × Nat × Nat) : Prop := (g.1 = 0 ∨ g.1 = 1) ∧ g.2.1 < n ∧ g.2.2 < n

/-- All layers are legal; `n` is the number of values below the first one. -/
def LegalLayers : Nat → List (List (Nat × Nat × Nat)) → Prop
  | _, [] => True
  | n, l :: ls => (∀ g ∈ l, Legal n g) ∧ LegalLayers l.length ls

/-- What a gate is meant to compute. -/
def gateValue (prev : List F) (g : Nat × Nat × Nat) : F :=
  if g.1 = 0 then prev.getD g.2.1 0 + prev.getD g.2.2 0 else prev.getD g.2.1 0 * prev.getD g.2.2 0

/-- The values of all layers above `prev`. -/
def circuitValues : List F → List (List (Nat × Nat × Nat)) → List (List F)
  | _, [] => []
  | prev, l :: ls => l.map (gateValue prev) :: circuitValues (l.map (gateValue prev)) ls

theorem mapM_ok {α β ε : Type} (g : α → Except ε β) (h : α → β) (l : List α) (hg : ∀ a ∈ l, g a = .ok (h a)) :
    l.mapM g = .ok (l.map h) := by
  induction l with
  | nil => rfl
  | cons a l ih =>
    rw [List.mapM_cons, hg a (by simp), ih fun b hb => hg b (List.mem_cons_of_mem _ hb)]
    rfl

theorem mapM_ok_mem {α β ε : Type} (g : α → Except ε β) (l : List α) (r : List β) (h : l.mapM g = .ok r) :
    ∀ a ∈ l, ∃ b, g a = .ok b := by
  induction l generalizing r with
  | nil => simp
  | cons a l ih =>
    rw [List.mapM_cons] at h
    cases ha : g a with
    | error e => rw [ha] at h; cases h
    | ok b =>
      rw [ha] at h
      cases hl : l.mapM g with
      | error e => rw [hl] at h; cases h
      | ok bs =>
        intro c hc
        rcases List.mem_cons.1 hc with rfl | hc
        · exact ⟨b, ha⟩
        · exact ih bs hl c hc

/-- The gates of a layer. -/
def gatesOf (raw : List (Nat × Nat × Nat)) : List Gate := raw.zipIdx.map fun x => ⟨x.2, x.1.1, x.1.2.1, x.1.2.2⟩

theorem midLayerNew_iff (raw : List (Nat × Nat × Nat)) (n : Nat) :
    (∃ l, midLayerNew raw n = .ok l) ↔ ∀ g ∈ raw, Legal n g := by
  constructor
  · rintro ⟨l, h⟩ g hg
    unfold midLayerNew at h
    cases hm : raw.zipIdx.mapM (checkGate n) with
    | error e => rw [hm] at h; cases h
    | ok gs =>
      obtain ⟨i, hi, rfl⟩ := List.getElem_of_mem hg
      have hmem : (raw[i], i) ∈ raw.zipIdx := by
        rw [List.mem_zipIdx_iff_getElem?]; simp [hi]
      obtain ⟨b, hb⟩ := mapM_ok_mem _ _ _ hm _ hmem
      unfold checkGate at hb
      unfold Legal
      split at hb
      · cases hb
      · split at hb
        · cases hb
        · simp only at *; omega
  · intro h
    unfold midLayerNew
    rw [mapM_ok (checkGate n) (fun x => ⟨x.2, x.1.1, x.1.2.1, x.1.2.2⟩) raw.zipIdx]
    · exact ⟨_, rfl⟩
    · intro x hx
      have hx1 : x.1 ∈ raw := by
        obtain ⟨a, i⟩ := x
        exact (List.mem_zipIdx' hx).2 ▸ List.getElem_mem _
      obtain ⟨h1, h2, h3⟩ := h x.1 hx1
      unfold checkGate
      rw [if_neg (by omega), if_neg (by omega)]

theorem midLayerNew_eq (raw : List (Nat × Nat × Nat)) (n : Nat) (h : ∀ g ∈ raw, Legal n g) :
    midLayerNew raw n = .ok ⟨raw.length, Nat.clog 2 (padTo raw.length), gatesOf raw⟩ := by
  unfold midLayerNew
  rw [mapM_ok (checkGate n) (fun x => ⟨x.2, x.1.1, x.1.2.1, x.1.2.2⟩) raw.zipIdx]
  · show Except.ok _ = _
    simp [gatesOf]
  · intro x hx
    have hx1 : x.1 ∈ raw := by
      obtain ⟨a, i⟩ := x
      exact (List.mem_zipIdx' hx).2 ▸ List.getElem_mem _
    obtain ⟨h1, h2, h3⟩ := h x.1 hx1
    unfold checkGate
    rw [if_neg (by omega), if_neg (by omega)]

/-- The layers above the input layer. -/
def layersOf (raw : List (List (Nat × Nat × Nat))) : List Layer :=
  raw.map fun l => ⟨l.length, Nat.clog 2 (padTo l.length), gatesOf l⟩

theorem midLayers_iff (raw : List (List (Nat × Nat × Nat))) (n : Nat) :
    ((∃ ls, midLayers raw n = .ok ls) ↔ LegalLayers n raw) ∧
    (LegalLayers n raw → midLayers raw n = .ok (layersOf raw)) := by
  induction raw generalizing n with
  | nil => exact ⟨⟨fun _ => trivial, fun _ => ⟨[], rfl⟩⟩, fun _ => rfl⟩
  | cons l ls ih =>
    have hok : LegalLayers n (l :: ls) → midLayers (l :: ls) n = .ok (layersOf (l :: ls)) := by
      rintro ⟨h1, h2⟩
      unfold midLayers
      rw [midLayerNew_eq l n h1]
      simp only [(ih l.length).2 h2]
      rfl
    refine ⟨⟨?_, fun h => ⟨_, hok h⟩⟩, hok⟩
    rintro ⟨r, h⟩
    unfold midLayers at h
    cases hm : midLayerNew l n with
    | error e => rw [hm] at h; cases h
    | ok l' =>
      have h1 := (midLayerNew_iff l n).1 ⟨l', hm⟩
      rw [midLayerNew_eq l n h1] at h
      simp only at h
      refine ⟨h1, (ih _).1.1 ?_⟩
      cases hr : midLayers ls l.length with
      | error e => rw [hr] at h; cases h
      | ok ls' => exact ⟨ls', rfl⟩

/-- A circuit is accepted at construction exactly if all its operators are addition or multiplication and
all nodes refer to the layer below. -/
theorem C55_accepted (ni na : Nat) (raw : List (List (Nat × Nat × Nat))) :
    (∃ c, Circuit.new ni na raw = .ok c) ↔ LegalLayers (2 * 2 ^ Nat.clog 2 (max na ni)) raw := by
  have hc : (inputNew ni na).gatesCount = 2 * 2 ^ Nat.clog 2 (max na ni) := by
    simp only [inputNew, padTo]; omega
  rw [← (midLayers_iff raw _).1, ← hc]
  unfold Circuit.new
  constructor
  · rintro ⟨c, h⟩
    simp only at h
    cases hm : midLayers raw (inputNew ni na).gatesCount with
    | error e => rw [hm] at h; cases h
    | ok ls => exact ⟨ls, rfl⟩
  · rintro ⟨ls, h⟩
    simp only [h]
    exact ⟨_, rfl⟩

theorem new_eq (ni na : Nat) (raw : List (List (Nat × Nat × Nat)))
    (h : LegalLayers (2 * 2 ^ Nat.clog 2 (max na ni)) raw) :
    Circuit.new ni na raw = .ok ⟨raw.length + 1, inputNew ni na :: layersOf raw⟩ := by
  have hc : (inputNew ni na).gatesCount = 2 * 2 ^ Nat.clog 2 (max na ni) := by
    simp only [inputNew, padTo]; omega
  unfold Circuit.new
  simp only [hc, (midLayers_iff raw _).2 h]
  rfl

theorem evalGate_eq (prev : List F) (i : Nat) (g : Nat × Nat × Nat) (h : Legal prev.length g) :
    evalGate prev ⟨i, g.1, g.2.1, g.2.2⟩ = .ok (gateValue prev g) := by
  obtain ⟨h1, h2, h3⟩ := h
  unfold evalGate gateValue
  rw [if_neg (by simp only; omega)]
  rcases h1 with h1 | h1 <;> simp [h1]

theorem evalGates_eq (raw : List (Nat × Nat × Nat)) (prev : List F) (h : ∀ g ∈ raw, Legal prev.length g) :
    (gatesOf raw).mapM (evalGate prev) = .ok (raw.map (gateValue prev)) := by
  have e : raw.map (gateValue prev) = raw.zipIdx.map fun x => gateValue prev x.1 := by
    conv_lhs => rw [← List.zipIdx_map_fst 0 raw]
    rw [List.map_map]
    rfl
  unfold gatesOf
  rw [List.mapM_map, e]
  apply mapM_ok
  intro x hx
  have hx1 : x.1 ∈ raw := by
    obtain ⟨a, i⟩ := x
    exact (List.mem_zipIdx' hx).2 ▸ List.getElem_mem _
  exact evalGate_eq prev x.2 x.1 (h x.1 hx1)

theorem evalLayers_eq (raw : List (List (Nat × Nat × Nat))) (prev : List F) (h : LegalLayers prev.length raw) :
    evalLayers (layersOf raw) prev = .ok (circuitValues prev raw) := by
  induction raw generalizing prev with
  | nil => rfl
  | cons l ls ih =>
    obtain ⟨h1, h2⟩ := h
    show (do
      let values ← (gatesOf l).mapM (evalGate prev)
      let rest ← evalLayers (layersOf ls) values
      pure (values :: rest)) = _
    rw [evalGates_eq l prev h1]
    show (do
      let rest ← evalLayers (layersOf ls) (l.map (gateValue prev))
      pure (l.map (gateValue prev) :: rest)) = _
    rw [ih _ (by simpa using h2)]
    rfl

theorem circuitValues_length (raw : List (List (Nat × Nat × Nat))) (prev : List F) :
    (circuitValues prev raw).length = raw.length := by
  induction raw generalizing prev with
  | nil => rfl
  | cons l ls ih => simp [circuitValues, ih]

/-- A circuit accepted at construction evaluates without error for all inputs and witness values that fit
in the counts given at construction: above some input layer (see `C54_actual`) each layer consists of the
sums and products named by its gates. -/
theorem C55_evaluates (ni na : Nat) (raw : List (List (Nat × Nat × Nat))) (c : Circuit)
    (h : Circuit.new ni na raw = .ok c) (inputs aux : List F) (hi : inputs.length ≤ ni) (ha : aux.length ≤ na) :
    ∃ v0 : List F, inputValues (inputNew ni na).bitSize inputs aux = .ok v0 ∧
      v0.length = 2 * 2 ^ Nat.clog 2 (max na ni) ∧
      c.evaluate inputs aux = .ok (v0 :: circuitValues v0 raw) := by
  have hl := (C55_accepted ni na raw).1 ⟨c, h⟩
  rw [new_eq ni na raw hl] at h
  obtain rfl := (Except.ok.inj h).symm
  have hf := fits_input ni na
  refine ⟨_, C54_actual ni na inputs aux hi ha, ?_, ?_⟩
  · simp; omega
  · have e : (aux ++ List.replicate (2 ^ Nat.clog 2 (max na ni) - inputs.length) 0 ++ inputs ++
        List.replicate (2 ^ Nat.clog 2 (max na ni) - aux.length) 0 : List F).length =
          2 * 2 ^ Nat.clog 2 (max na ni) := by simp; omega
    generalize hv : (aux ++ List.replicate (2 ^ Nat.clog 2 (max na ni) - inputs.length) 0 ++ inputs ++
        List.replicate (2 ^ Nat.clog 2 (max na ni) - aux.length) 0 : List F) = v0 at e
    have h0 := C54_actual ni na inputs aux hi ha
    rw [hv] at h0
    have h1 := evalLayers_eq raw v0 (by rw [e]; exact hl)
    unfold Circuit.evaluate
    simp only [h0]
    show (do
      let rest ← evalLayers (layersOf raw) v0
      let evals ← pure (v0 :: rest)
      if evals.length = raw.length + 1 then Except.ok evals else .error .panic) = _
    rw [h1]
    show (if (v0 :: circuitValues v0 raw).length = raw.length + 1 then Except.ok _ else _) = _
    rw [if_pos (by simp [circuitValues_length])]

/-- C55, circuits that were not built by `new` (they can be deserialised): a gate has a value exactly when both its nodes
exist in the layer below and its operator is known, and the value is the sum or the product. -/
theorem C55_gate (prev : List F) (g : Gate) (v : F) :
    evalGate prev g = .ok v ↔ ∃ a b, prev[g.left]? = some a ∧ prev[g.right]? = some b ∧
      (g.op = 0 ∧ v = a + b ∨ g.op = 1 ∧ v = a * b) := by
  unfold evalGate
  by_cases h : g.left ≥ prev.length ∨ g.right ≥ prev.length
  · rw [if_pos h]
    refine ⟨fun e => (by cases e), ?_⟩
    rintro ⟨a, b, h1, h2, _⟩
    have := (List.getElem?_eq_some_iff.1 h1).1
    have := (List.getElem?_eq_some_iff.1 h2).1
    omega
  · rw [if_neg h]
    have hl : g.left < prev.length := by omega
    have hr : g.right < prev.length := by omega
    simp only [List.getElem?_eq_getElem hl, List.getElem?_eq_getElem hr, List.getD_eq_getElem?_getD, Option.getD_some,
      Option.some.injEq]
    constructor
    · intro e
      by_cases h0 : g.op = 0
      · rw [if_pos h0] at e; exact ⟨_, _, rfl, rfl, .inl ⟨h0, (Except.ok.inj e).symm⟩⟩
      · rw [if_neg h0] at e
        by_cases h1 : g.op = 1
        · rw [if_pos h1] at e; exact ⟨_, _, rfl, rfl, .inr ⟨h1, (Except.ok.inj e).symm⟩⟩
        · rw [if_neg h1] at e; cases e
    · rintro ⟨a, b, rfl, rfl, ⟨h0, rfl⟩ | ⟨h1, rfl⟩⟩
      · rw [if_pos h0]
      · rw [if_neg (by omega), if_pos h1]

/-- The right node does not exist. -/
example : ¬ ∃ v, evalGate ([1, 2] : List F17) ⟨0, 0, 1, 2⟩ = .ok v := by
  rintro ⟨v, h⟩
  obtain ⟨a, b, _, h2, _⟩ := (C55_gate _ _ _).1 h
  simp at h2

/-- Two layers over an input layer of four values. -/
def exRaw : List (List (Nat × Nat × Nat)) := [[(0, 0, 1), (1, 2, 3), (1, 1, 1)], [(1, 0, 2), (0, 1, 1)]]

theorem exRaw_legal : LegalLayers (2 * 2 ^ Nat.clog 2 (max 2 2)) exRaw := by
  have : Nat.clog 2 (max 2 2) = 1 := by decide
  rw [this]
  simp [exRaw, LegalLayers, Legal]

/-- `(3, 5)` as witness and `(1, 4)` as inputs: `[3 + 5, 1 * 4, 5 * 5]`, then `[8 * 8, 4 + 4]` modulo 17. -/
example : ∃ c, Circuit.new 2 2 exRaw = .ok c ∧
    c.evaluate ([1, 4] : List F17) [3, 5] = .ok [[3, 5, 1, 4], [8, 4, 8], [13, 8]] := by
  obtain ⟨c, hc⟩ := (C55_accepted 2 2 exRaw).2 exRaw_legal
  obtain ⟨v0, h1, h2, h3⟩ := C55_evaluates 2 2 exRaw c hc ([1, 4] : List F17) [3, 5] (by simp) (by simp)
  refine ⟨c, hc, ?_⟩
  rw [h3]
  rw [C54_actual 2 2 _ _ (by simp) (by simp)] at h1
  have : Nat.clog 2 (max 2 2) = 1 := by decide
  rw [this] at h1
  obtain rfl := Except.ok.inj h1
  rfl

/-- A node outside the layer below, and an unknown operator. -/
example : ¬ (∃ c, Circuit.new 2 2 [[(0, 0, 4)]] = .ok c) ∧ ¬ (∃ c, Circuit.new 2 2 [[(2, 0, 1)]] = .ok c) := by
  have : Nat.clog 2 (max 2 2) = 1 := by decide
  constructor <;> rw [C55_accepted, this] <;> simp [LegalLayers, Legal]

end Zkp.Gkr
