/- C77: exactly which circuits Libra's linear GKR prover proves. -/
import Verif.Props.LibraZk

namespace Zkp.Gkr

open Zkp.Ml Zkp.Spartan Zkp.Sc Zkp.Cp

set_option linter.unusedSectionVars false
set_option linter.unusedSimpArgs false

variable {F : Type} [Field F] {G : Type} [AddCommGroup G] [Module F G] [DecidableEq F] [DecidableEq G]

theorem proveLayers_needs (ch : Oracle F G) (items : List (List Gate × List F × Nat)) :
    ∀ (gu gv : List F) (a b c d : F) (tr tr' : Transcript F G) (ps : List (LayerProof F)),
      proveLayers ch items gu gv a b c d tr = .ok (ps, tr') → ∀ x ∈ items, x.2.1.length = 2 ^ x.2.2 := by
  induction items with
  | nil => intro gu gv a b c d tr tr' ps h; simp
  | cons x rest ih =>
    intro gu gv a b c d tr tr' ps h
    obtain ⟨gates, v, n⟩ := x
    unfold proveLayers at h
    obtain ⟨⟨p, ru, rv, fu, fv⟩, _, h1, h⟩ := bind_inv h
    have hv : v.length = 2 ^ n := by
      unfold proveLayer at h1
      obtain ⟨⟨x1, x2, x3⟩, _, _, h1⟩ := bind_inv h1
      obtain ⟨_, _, h2, _⟩ := bind_inv h1
      unfold phaseOneProver at h2
      obtain ⟨_, _, h2, _⟩ := bind_inv h2
      exact (of_decide_eq_true (ensure_inv h2).1).2.2.2
    intro z hz
    rcases List.mem_cons.1 hz with rfl | hz
    · exact hv
    · cases rest with
      | nil => simp at hz
      | cons y rest =>
        obtain ⟨_, _, _, h⟩ := bind_inv h
        obtain ⟨_, _, _, h⟩ := bind_inv h
        obtain ⟨_, _, h2, _⟩ := bind_inv h
        exact ih _ _ _ _ _ _ _ _ _ h2 z hz

theorem full_upward (raw : List (List (Nat × Nat × Nat))) (v : List F) (n : Nat)
    (h : ∀ x ∈ upward v n raw, x.2.1.length = 2 ^ x.2.2) : FullLayers raw := by
  induction raw generalizing v n with
  | nil => trivial
  | cons l ls ih =>
    cases ls with
    | nil => trivial
    | cons m ms =>
      have h' := fun x hx => h x (List.mem_cons_of_mem _ hx)
      have := h' (gatesOf m, l.map (gateValue v), Nat.clog 2 (padTo l.length)) (by simp [upward])
      exact ⟨⟨_, by simpa using this⟩, ih _ _ h'⟩

/-- The prover succeeds exactly for the circuits in which every layer but the last has a power of two of gates,
whatever the inputs, the witness values and the hash function. -/
theorem C77_exact (h2 : (2 : F) ≠ 0) (ch : Oracle F G) (ni na : Nat) (raw : List (List (Nat × Nat × Nat))) (c : Circuit)
    (hc : Circuit.new ni na raw = .ok c) (hne : raw ≠ []) (inputs aux : List F)
    (hi : inputs.length ≤ ni) (ha : aux.length ≤ na) (hash : F) :
    (∃ out, linearProver ch c inputs aux hash = .ok out) ↔ FullLayers raw := by
  constructor
  · rintro ⟨out, h⟩
    obtain ⟨v0, e0, hv0, ev⟩ := C55_evaluates ni na raw c hc inputs aux hi ha
    have hl := (C55_accepted ni na raw).1 ⟨c, hc⟩
    rw [new_eq ni na raw hl] at hc
    obtain rfl := (Except.ok.inj hc).symm
    unfold linearProver at h
    simp only [ev] at h
    split at h
    · next ps tr hrun =>
      obtain ⟨_, _, _, hrun⟩ := bind_inv hrun
      obtain ⟨⟨x, gu⟩, _, _, hrun⟩ := bind_inv hrun
      rw [layerInputs_eq] at hrun
      have := proveLayers_needs _ _ _ _ _ _ _ _ _ _ _ hrun
      exact full_upward raw v0 _ fun x hx => this x (List.mem_reverse.2 hx)
    · cases h
  · intro hf
    obtain ⟨v0, ps, -, h, -⟩ := C77_partial h2 ch ni na raw c hc hne hf inputs aux hi ha hash
    exact ⟨_, h⟩

/-- The lowest of three layers has three gates. -/
example (ch : Oracle F17 F17) : ∃ c, Circuit.new 2 2 [[(0, 0, 1), (1, 2, 3), (1, 1, 1)], [(1, 0, 1), (0, 1, 2)], [(0, 0, 1)]] =
    .ok c ∧ ¬ ∃ out, linearProver ch c [1, 4] [3, 5] 9 = .ok out := by
  obtain ⟨c, hc⟩ := (C55_accepted 2 2 [[(0, 0, 1), (1, 2, 3), (1, 1, 1)], [(1, 0, 1), (0, 1, 2)], [(0, 0, 1)]]).2 (by
    have : Nat.clog 2 (max 2 2) = 1 := by decide
    rw [this]; simp [LegalLayers, Legal])
  refine ⟨c, hc, ?_⟩
  rw [C77_exact (by decide) ch 2 2 _ c hc (by simp) [1, 4] [3, 5] (by simp) (by simp) 9]
  rintro ⟨⟨_ | _ | k, h⟩, -⟩
  · simp at h
  · simp at h
  · have h : 3 = 2 ^ (k + 2) := h
    rw [pow_add] at h; omega

end Zkp.Gkr
