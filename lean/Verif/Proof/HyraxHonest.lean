/- Circuits and instances of an honest run of Hyrax. -/
import Verif.Proof.HyraxLayers
import Verif.Proof.SpartanSnark

set_option linter.unusedSectionVars false

namespace Zkp.Hx

open Zkp.Ml Zkp.Spartan Zkp.Gkr Zkp.Cp Zkp.Sc Polynomial

variable {F : Type} [Field F] {G : Type} [AddCommGroup G] [Module F G] [DecidableEq F] [DecidableEq G]

/-- Every layer has a power of two of gates and, unless the layer below has a single value, not more of them than the
layer below, which has `n`. -/
def Tapers : Nat → List (List (Nat × Nat × Nat)) → Prop
  | _, [] => True
  | n, l :: ls => (∃ k, l.length = 2 ^ k) ∧ (n = 1 ∨ l.length ≤ n) ∧ Tapers l.length ls

/-- The numbers of values of the layers. -/
def counts (n : Nat) (raw : List (List (Nat × Nat × Nat))) : List Nat := n :: raw.map List.length

def sizeLog (n : Nat) (raw : List (List (Nat × Nat × Nat))) (i : Nat) : Nat := Nat.clog 2 ((counts n raw).getD i 0)

theorem tapers_size (raw : List (List (Nat × Nat × Nat))) : ∀ n, (∃ k, n = 2 ^ k) → Tapers n raw →
    (∀ i < raw.length + 1, (counts n raw).getD i 0 = 2 ^ sizeLog n raw i) ∧
    ∀ i < raw.length, sizeLog n raw i = 0 ∨ sizeLog n raw (i + 1) ≤ sizeLog n raw i := by
  induction raw with
  | nil =>
    rintro n ⟨k, rfl⟩ _
    refine ⟨fun i hi => ?_, by simp⟩
    obtain rfl : i = 0 := by simpa using hi
    simp [sizeLog, counts, Nat.clog_pow]
  | cons l ls ih =>
    rintro n ⟨k, rfl⟩ ⟨hl, hn, ht⟩
    obtain ⟨i1, i2⟩ := ih l.length hl ht
    constructor
    · intro i hi
      cases i with
      | zero => simp [sizeLog, counts, Nat.clog_pow]
      | succ i => exact i1 i (by simpa using hi)
    · intro i hi
      cases i with
      | zero =>
        obtain ⟨j, hj⟩ := hl
        simp only [sizeLog, counts, List.getD_cons_zero, List.map_cons, List.getD_cons_succ, hj]
        rw [Nat.clog_pow 2 _ (by decide), Nat.clog_pow 2 _ (by decide)]
        rcases hn with hn | hn
        · left
          by_contra h
          have := Nat.one_lt_two_pow h
          omega
        · right
          rw [hj] at hn
          exact (Nat.pow_le_pow_iff_right (by decide)).1 hn
      | succ i => exact i2 i (by simpa using hi)

theorem gatesOf_numbered (l : List (Nat × Nat × Nat)) : Numbered (gatesOf l) := by
  intro i h
  simp [gatesOf]

/-- The layers of a circuit, one by one. -/
theorem layers_get (l0 : Layer) (raw : List (List (Nat × Nat × Nat))) (i : Nat) (l : Layer)
    (h : (l0 :: layersOf raw)[i + 1]? = some l) : ∃ r, raw[i]? = some r ∧
      l = ⟨r.length, Nat.clog 2 (padTo r.length), gatesOf r⟩ := by
  rw [List.getElem?_cons_succ, layersOf, List.getElem?_map] at h
  cases hr : raw[i]? with
  | none => rw [hr] at h; cases h
  | some r => rw [hr] at h; exact ⟨r, rfl, (Option.some.inj h).symm⟩

theorem legal_get (raw : List (List (Nat × Nat × Nat))) : ∀ n, LegalLayers n raw → ∀ i r, raw[i]? = some r →
    ∀ g ∈ r, Legal ((counts n raw).getD i 0) g := by
  induction raw with
  | nil => intro n _ i r h; simp at h
  | cons l ls ih =>
    rintro n ⟨h1, h2⟩ i r h
    cases i with
    | zero => cases Option.some.inj h; exact h1
    | succ i => exact ih l.length h2 i r h

theorem circuitValues_lengths (raw : List (List (Nat × Nat × Nat))) : ∀ v : List F,
    (v :: circuitValues v raw).map List.length = counts v.length raw := by
  induction raw with
  | nil => intro v; rfl
  | cons l ls ih =>
    intro v
    have := ih (l.map (gateValue v))
    simp only [circuitValues, List.map_cons, counts, List.length_map] at this ⊢
    rw [this]

theorem circuitValues_get (raw : List (List (Nat × Nat × Nat))) : ∀ (v : List F) i r, raw[i]? = some r →
    (v :: circuitValues v raw).getD (i + 1) [] = r.map (gateValue ((v :: circuitValues v raw).getD i [])) := by
  induction raw with
  | nil => intro v i r h; simp at h
  | cons l ls ih =>
    intro v i r h
    cases i with
    | zero => cases Option.some.inj h; rfl
    | succ i => exact ih (l.map (gateValue v)) i r h

theorem getD_length (l : List (List F)) (i : Nat) (h : i < l.length) : (l.getD i []).length = (l.map List.length).getD i 0 := by
  rw [List.getD_eq_getElem _ _ h, List.getD_eq_getElem _ _ (by simpa using h)]; simp

/-- The values that an honest prover computes. -/
theorem honest_of (ni na : Nat) (raw : List (List (Nat × Nat × Nat))) (inputs : List (List F)) (logN : Nat)
    (hl : LegalLayers (2 * 2 ^ Nat.clog 2 (max na ni)) raw) (ht : Tapers (2 * 2 ^ Nat.clog 2 (max na ni)) raw)
    (hn : inputs.length = 2 ^ logN) (hv : ∀ v ∈ inputs, v.length = 2 * 2 ^ Nat.clog 2 (max na ni)) :
    Honest (inputNew ni na :: layersOf raw) (sizeLog (2 * 2 ^ Nat.clog 2 (max na ni)) raw)
      (inputs.map fun v => v :: circuitValues v raw) logN := by
  have hc : (inputNew ni na).gatesCount = 2 * 2 ^ Nat.clog 2 (max na ni) := by simp only [inputNew, padTo]; omega
  obtain ⟨s1, s2⟩ := tapers_size raw _ ⟨Nat.clog 2 (max na ni) + 1, by rw [pow_succ]; omega⟩ ht
  have hraw : ∀ i r, raw[i]? = some r → r.length = (counts (2 * 2 ^ Nat.clog 2 (max na ni)) raw).getD (i + 1) 0 := by
    intro i r h
    simp only [counts, List.getD_cons_succ]
    rw [List.getD_eq_getElem?_getD, List.getElem?_map, h]; rfl
  refine ⟨by simpa using hn, ?_, ?_, ?_⟩
  · intro i l h
    have hi := (List.getElem?_eq_some_iff.1 h).1
    simp only [List.length_cons, layersOf, List.length_map] at hi
    rw [← s1 i hi]
    cases i with
    | zero => cases Option.some.inj h; rw [hc]; rfl
    | succ i =>
      obtain ⟨r, hr, rfl⟩ := layers_get _ _ _ _ h
      exact hraw i r hr
  · intro e he i hi
    obtain ⟨v, hvm, rfl⟩ := List.mem_map.1 he
    simp only [List.length_cons, layersOf, List.length_map] at hi
    have hlen := circuitValues_lengths raw v
    have hi' : i < (v :: circuitValues v raw).length := by
      have := congrArg List.length hlen
      simp only [List.length_map, counts, List.length_cons] at this ⊢
      omega
    exact ⟨hi', by rw [getD_length _ _ hi', hlen, hv v hvm, s1 i hi]⟩
  · intro i l h
    obtain ⟨r, hr, rfl⟩ := layers_get _ _ _ _ h
    have hi := (List.getElem?_eq_some_iff.1 hr).1
    refine ⟨gatesOf_numbered r, ?_, ?_⟩
    · rw [← s1 (i + 1) (by omega), ← hraw i r hr]; simp [gatesOf]
    · intro g hg
      simp only [gatesOf] at hg
      obtain ⟨⟨q, j⟩, hq, rfl⟩ := List.mem_map.1 hg
      have hj := List.mem_zipIdx' hq
      obtain ⟨o1, o2, o3⟩ := legal_get raw _ hl i r hr q (by rw [hj.2]; exact List.getElem_mem _)
      rw [s1 i (by omega)] at o2 o3
      refine ⟨o1, o2, o3, fun e he => ?_⟩
      obtain ⟨v, hvm, rfl⟩ := List.mem_map.1 he
      rw [circuitValues_get raw v i r hr, List.getD_eq_getElem _ _ (by simpa using hj.1), List.getElem_map, ← hj.2]
      rfl

/-! ### The instances -/

theorem instances_run (c : Circuit) (f : List F → List F → List (List F)) :
    ∀ (ps : List (List F × List F)), (∀ p ∈ ps, c.evaluate p.1 p.2 = .ok (f p.1 p.2)) → ∀ tr : Transcript F G,
      ∃ tr', evalInstances c ps tr = .ok (ps.map fun p => f p.1 p.2, tr') ∧
        sayInstances (ps.map Prod.fst) (ps.map fun p => (f p.1 p.2).getLastD []) tr = .ok ((), tr')
  | [], _, tr => ⟨tr, rfl, rfl⟩
  | (i, w) :: ps, h, tr => by
    obtain ⟨tr', h1, h2⟩ := instances_run c f ps (fun p hp => h p (by simp [hp]))
      (tr ++ [.frs "input_i" i] ++ [.frs "output_i" ((f i w).getLastD [])])
    have he := h (i, w) (by simp)
    refine ⟨tr', ?_, ?_⟩
    · apply Cp.runs_eq
      unfold evalInstances
      refine Runs.say.bind fun _ _ e => ?_
      subst e
      simp only at he
      rw [he]
      refine Runs.say.bind fun _ _ e => ?_
      subst e
      refine (Cp.runs_of h1).bind fun _ _ e => ?_
      obtain ⟨rfl, rfl⟩ := e
      exact Runs.pure ⟨rfl, rfl⟩
    · apply Cp.runs_eq
      simp only [List.map_cons]
      unfold sayInstances
      refine Runs.say.bind fun _ _ e => ?_
      subst e
      refine Runs.say.bind fun _ _ e => ?_
      subst e
      exact (Cp.runs_of h2).mono fun _ _ e => ⟨trivial, e.2⟩

/-! ### The input layer -/

theorem mle_combo {α : Type} (l : List α) (f g : α → F) (a b : F) (r : List F) :
    mle (l.map fun x => a * f x + b * g x) r = a * mle (l.map f) r + b * mle (l.map g) r := by
  unfold mle
  rw [Finset.mul_sum, Finset.mul_sum, ← Finset.sum_add_distrib]
  refine Finset.sum_congr rfl fun i _ => ?_
  simp only [List.getD_eq_getElem?_getD, List.getElem?_map]
  cases l[i]? <;> simp; ring

theorem mle_inputVec (ins : List (List F)) (qa q : List F) (h : ∀ v ∈ ins, padTo v.length = 2 ^ q.length) :
    mle (inputVec ins) (qa ++ q) = mle (ins.map fun v => mle v q) qa := by
  have e := mle_flatten (ins.map fun v => v ++ List.replicate (padTo v.length - v.length) 0) qa q (by
    intro l hl
    obtain ⟨v, hv, rfl⟩ := List.mem_map.1 hl
    have := h v hv
    have hp : v.length ≤ padTo v.length := Nat.le_pow_clog (by decide) _
    simp only [List.length_append, List.length_replicate]; omega) 0
  simp only [List.replicate_zero, List.append_nil, List.map_map] at e
  rw [inputVec, List.flatMap_def, e]
  congr 1
  exact List.map_congr_left fun v _ => mle_pad v q _

theorem inputVec_len (ins : List (List F)) (B : Nat) (h : ∀ v ∈ ins, padTo v.length = B) :
    (inputVec ins).length = ins.length * B := by
  induction ins with
  | nil => simp [inputVec]
  | cons v ins ih =>
    have := ih fun i hi => h i (List.mem_cons_of_mem _ hi)
    have hv := h v (by simp)
    have hp : v.length ≤ padTo v.length := Nat.le_pow_clog (by decide) _
    simp only [inputVec, List.flatMap_cons, List.length_append, List.length_replicate, List.length_cons] at this ⊢
    rw [Nat.add_mul]
    omega

theorem input_value (s : Nat → Nat) (raw : List (List (Nat × Nat × Nat))) (k : Nat) (hs : s 0 = k + 1)
    (ps : List (List F × List F)) (hlen : ∀ p ∈ ps, p.1.length ≤ 2 ^ k ∧ p.2.length ≤ 2 ^ k)
    (hpad : ∀ p ∈ ps, padTo p.1.length = 2 ^ k ∧ padTo p.2.length = 2 ^ k) (qa q : List F) (hq : q.length = k + 1) :
    layerVal s ((ps.map fun p => layout (2 ^ k) p.1 p.2).map fun v => v :: circuitValues v raw) 0 qa q =
      (1 - q.headD 0) * mle (inputVec (ps.map Prod.snd)) (qa ++ q.tail) +
        q.headD 0 * mle (inputVec (ps.map Prod.fst)) (qa ++ q.tail) := by
  obtain ⟨q0, qt, rfl⟩ := List.exists_cons_of_length_eq_add_one hq
  have hqt : qt.length = k := by simpa using hq
  rw [layerVal_eq _ _ _ _ _ (by rw [hq, hs])]
  simp only [List.headD_cons, List.tail_cons]
  rw [mle_inputVec _ _ _ (by
    intro v hv
    obtain ⟨p, hp, rfl⟩ := List.mem_map.1 hv
    rw [hqt]; exact (hpad p hp).2), mle_inputVec _ _ _ (by
    intro v hv
    obtain ⟨p, hp, rfl⟩ := List.mem_map.1 hv
    rw [hqt]; exact (hpad p hp).1)]
  simp only [List.map_map, Function.comp_def]
  rw [← mle_combo]
  congr 1
  refine List.map_congr_left fun p hp => ?_
  obtain ⟨h1, h2⟩ := hlen p hp
  have l1 : (p.2 ++ List.replicate (2 ^ qt.length - p.2.length) 0).length = 2 ^ qt.length := by
    rw [hqt]; simp; omega
  rw [List.getD_cons_zero, mle_cons, layout, ← hqt, List.take_left' l1, List.drop_left' l1, mle_pad, mle_pad]

end Zkp.Hx
