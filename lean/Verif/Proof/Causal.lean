/- What a verifier has said before a challenge depends only on the earlier challenges. -/
import Verif.Proof.Interactive

namespace Zkp.Sc

open Zkp.Spartan
open Zkp.Cp (bind_inv say_inv challenge_inv ensure_inv orPanic_inv pure_inv)

set_option linter.unusedSectionVars false
set_option linter.unusedSimpArgs false

variable {F : Type} [Field F] {G : Type} [AddCommGroup G] [Module F G] [DecidableEq F] [DecidableEq G]

theorem before_of_lt (n : Nat) (a b : Transcript F G) (h : n < numChal a) : before n (a ++ b) = before n a := by
  induction a generalizing n with
  | nil => simp [numChal] at h
  | cons m a ih =>
    cases m with
    | chal l =>
      cases n with
      | zero => simp [before]
      | succ n => simp only [List.cons_append, before]; rw [ih n (by simpa [numChal] using h)]
    | _ =>
      have := ih n (by simpa [numChal] using h)
      cases n <;> simp only [List.cons_append, before, this]

/-- Two oracles that agree on the first `n` challenges of any transcript. -/
def AgreeTo (n : Nat) (ch ch' : Oracle F G) : Prop := ∀ u, 1 ≤ numChal u → numChal u ≤ n → ch u = ch' u

/-- With oracles that agree on `n` challenges the runs agree, or agree up to that challenge. -/
def Causal {α : Type} (x : Oracle F G → Vf F G α) : Prop :=
  ∀ n ch ch' tr a t a' t', AgreeTo n ch ch' → x ch tr = .ok (a, t) → x ch' tr = .ok (a', t') →
    tr <+: t ∧ tr <+: t' ∧ ((a = a' ∧ t = t') ∨ (n < numChal t ∧ n < numChal t' ∧ before n t = before n t'))

theorem Causal.pure {α : Type} (a : α) : Causal (F := F) (G := G) fun _ => (Pure.pure a : Vf F G α) := by
  intro n ch ch' tr b t b' t' _ h h'
  obtain ⟨rfl, rfl⟩ := pure_inv h
  obtain ⟨rfl, rfl⟩ := pure_inv h'
  exact ⟨List.prefix_rfl, List.prefix_rfl, Or.inl ⟨rfl, rfl⟩⟩

theorem Causal.say (m : Msg F G) : Causal fun _ => Spartan.say m := by
  intro n ch ch' tr b t b' t' _ h h'
  obtain rfl := say_inv h
  obtain rfl := say_inv h'
  exact ⟨List.prefix_append _ _, List.prefix_append _ _, Or.inl ⟨rfl, rfl⟩⟩

theorem Causal.ensure (e : Stop) (b : Bool) : Causal (F := F) (G := G) fun _ => Spartan.ensure e b := by
  intro n ch ch' tr b t b' t' _ h h'
  obtain ⟨_, rfl⟩ := ensure_inv h
  obtain ⟨_, rfl⟩ := ensure_inv h'
  exact ⟨List.prefix_rfl, List.prefix_rfl, Or.inl ⟨rfl, rfl⟩⟩

theorem Causal.orPanic {α : Type} (x : Option α) : Causal (F := F) (G := G) fun _ => Spartan.orPanic x := by
  intro n ch ch' tr b t b' t' _ h h'
  obtain ⟨e, rfl⟩ := orPanic_inv h
  obtain ⟨e', rfl⟩ := orPanic_inv h'
  exact ⟨List.prefix_rfl, List.prefix_rfl, Or.inl ⟨Option.some.inj (e.symm.trans e'), rfl⟩⟩

theorem numChal_chal (tr : Transcript F G) (l : String) : numChal (tr ++ [.chal l]) = numChal tr + 1 := by
  rw [numChal_append]; rfl

theorem Causal.challenge (l : String) : Causal (F := F) (G := G) fun ch => Spartan.challenge ch l := by
  intro n ch ch' tr b t b' t' ha h h'
  obtain ⟨rfl, rfl⟩ := challenge_inv h
  obtain ⟨rfl, rfl⟩ := challenge_inv h'
  refine ⟨List.prefix_append _ _, List.prefix_append _ _, ?_⟩
  by_cases hn : numChal tr + 1 ≤ n
  · exact Or.inl ⟨ha _ (by rw [numChal_chal]; omega) (by rw [numChal_chal]; exact hn), rfl⟩
  · exact Or.inr ⟨by rw [numChal_chal]; omega, by rw [numChal_chal]; omega, rfl⟩

theorem numChal_prefix {a b : Transcript F G} (h : a <+: b) : numChal a ≤ numChal b := by
  obtain ⟨w, rfl⟩ := h
  rw [numChal_append]; omega

theorem drawn_length (ch : Oracle F G) (t : Transcript F G) : (drawn ch t).length = numChal t := by
  induction t using List.reverseRecOn with
  | nil => rfl
  | append_singleton t m ih =>
    rw [numChal_append, ← ih]
    unfold drawn
    rw [drawnFrom_append]
    cases m <;> simp [drawnFrom, numChal]

theorem Causal.bind {α β : Type} {x : Oracle F G → Vf F G α} {f : Oracle F G → α → Vf F G β} (hx : Causal x)
    (hf : ∀ a, Causal fun ch => f ch a) : Causal fun ch => x ch >>= f ch := by
  intro n ch ch' tr b t b' t' hag h h'
  obtain ⟨a, s, h1, h2⟩ := bind_inv h
  obtain ⟨a', s', h1', h2'⟩ := bind_inv h'
  obtain ⟨p, p', hc⟩ := hx n ch ch' tr a s a' s' hag h1 h1'
  obtain ⟨q, -, -⟩ := hf a n ch ch s b t b t (fun _ _ _ => rfl) h2 h2
  obtain ⟨q', -, -⟩ := hf a' n ch' ch' s' b' t' b' t' (fun _ _ _ => rfl) h2' h2'
  refine ⟨p.trans q, p'.trans q', ?_⟩
  rcases hc with ⟨rfl, rfl⟩ | ⟨l, l', e⟩
  · exact (hf a n ch ch' s b t b' t' hag h2 h2').2.2
  · refine Or.inr ⟨lt_of_lt_of_le l (numChal_prefix q), lt_of_lt_of_le l' (numChal_prefix q'), ?_⟩
    obtain ⟨w, rfl⟩ := q
    obtain ⟨w', rfl⟩ := q'
    rw [before_of_lt _ _ _ l, before_of_lt _ _ _ l', e]

theorem tape_agree {m : Nat} (f g : Fin m → F) (i : Fin m) (h : ∀ j < i, f j = g j) :
    AgreeTo (G := G) i (tape (List.ofFn f)) (tape (List.ofFn g)) := by
  intro u h1 h2
  unfold tape
  have hlt : numChal u - 1 < m := by have := i.2; omega
  rw [List.getD_eq_getElem _ _ (by simpa using hlt), List.getD_eq_getElem _ _ (by simpa using hlt), List.getElem_ofFn,
    List.getElem_ofFn]
  exact h _ (by rw [Fin.lt_def]; simp only; omega)

/-- Accepted runs on tapes that agree before challenge `i` have said the same before it. -/
theorem Causal.before {α : Type} {x : Oracle F G → Vf F G α} (hx : Causal x) {m : Nat} (f g : Fin m → F) (i : Fin m)
    (h : ∀ j < i, f j = g j) {tr : Transcript F G} {a a' : α} {t t' : Transcript F G}
    (h1 : x (tape (List.ofFn f)) tr = .ok (a, t)) (h2 : x (tape (List.ofFn g)) tr = .ok (a', t')) :
    Sc.before i t = Sc.before i t' := by
  rcases (hx i _ _ tr a t a' t' (tape_agree f g i h) h1 h2).2.2 with ⟨_, rfl⟩ | ⟨_, _, e⟩
  · rfl
  · exact e

/-! ### Spartan's verifier -/

theorem Causal.challenges (l : String) (n : Nat) : Causal (F := F) (G := G) fun ch => Spartan.challenges ch l n := by
  induction n with
  | zero => exact Causal.pure _
  | succ n ih => exact (Causal.challenge l).bind fun _ => ih.bind fun _ => Causal.pure _

theorem Causal.scEval (gen1 genN : MultiParams G) (a b c : G) (p : ScEvalProof F G) (r : F) (size : Nat) :
    Causal fun ch => scEvalVerify ch gen1 genN a b c p r size :=
  (Causal.challenge _).bind fun _ => (Causal.challenge _).bind fun _ => (Causal.say _).bind fun _ =>
    (Causal.say _).bind fun _ => (Causal.say _).bind fun _ => (Causal.say _).bind fun _ => (Causal.challenge _).bind fun _ =>
    (Causal.ensure _ _).bind fun _ => Causal.pure _

theorem Causal.scRounds (gen1 genN : MultiParams G) (proof : ScProof F G) (size k i : Nat) (c : G) :
    Causal fun ch => Spartan.scRounds ch gen1 genN proof size k i c := by
  induction k generalizing i c with
  | zero => exact Causal.pure _
  | succ k ih =>
    exact (Causal.orPanic _).bind fun _ => (Causal.orPanic _).bind fun _ => (Causal.orPanic _).bind fun _ =>
      (Causal.say _).bind fun _ => (Causal.challenge _).bind fun _ => (Causal.say _).bind fun _ => (Causal.say _).bind fun _ =>
      (Causal.scEval _ _ _ _ _ _ _ _).bind fun _ => (Causal.ensure _ _).bind fun _ => (ih _ _).bind fun _ => Causal.pure _

theorem Causal.bulletChallenges (L R : List G) : Causal (F := F) fun ch => Spartan.bulletChallenges ch L R := by
  induction L generalizing R with
  | nil => exact Causal.pure _
  | cons l L ih =>
    cases R with
    | nil => exact Causal.pure _
    | cons r R =>
      exact (Causal.say _).bind fun _ => (Causal.say _).bind fun _ => (Causal.challenge _).bind fun _ =>
        (Causal.ensure _ _).bind fun _ => (ih _).bind fun _ => Causal.pure _

theorem Causal.inner (params : PcParams G) (ry : List F) (commits : List G) (c : G) (proof : DotProof F G) :
    Causal fun ch => innerProductVerify ch params ry commits c proof :=
  (Causal.say _).bind fun _ => (Causal.say _).bind fun _ => (Causal.say _).bind fun _ =>
    ((Causal.ensure _ _).bind fun _ => (Causal.bulletChallenges _ _).bind fun _ => (Causal.ensure _ _).bind fun _ =>
      (Causal.ensure _ _).bind fun _ => Causal.pure _).bind fun _ =>
    (Causal.say _).bind fun _ => (Causal.say _).bind fun _ => (Causal.challenge _).bind fun _ =>
    (Causal.orPanic _).bind fun _ => Causal.pure _

theorem Causal.eq (params : MultiParams G) (a b : G) (p : EqProof F G) : Causal fun ch => eqVerify ch params a b p :=
  (Causal.say _).bind fun _ => (Causal.say _).bind fun _ => (Causal.say _).bind fun _ => (Causal.challenge _).bind fun _ =>
    Causal.pure _

/-- The satisfiability verifier. -/
theorem Causal.sat (params : SatParams G) (s : Inst F) (inputs : List F) (proof : SatProof F G) (e : F × F × F) :
    Causal fun ch => satVerify ch params s inputs proof e :=
  (Causal.ensure _ _).bind fun _ => (Causal.say _).bind fun _ => (Causal.say _).bind fun _ =>
    (Causal.challenges _ _).bind fun _ => (Causal.scRounds _ _ _ _ _ _ _).bind fun _ =>
    ((Causal.say _).bind fun _ => (Causal.say _).bind fun _ => (Causal.challenge _).bind fun _ => Causal.pure _).bind fun _ =>
    (Causal.ensure _ _).bind fun _ =>
    ((Causal.orPanic _).bind fun _ => (Causal.orPanic _).bind fun _ => (Causal.orPanic _).bind fun _ =>
      (Causal.orPanic _).bind fun _ => (Causal.orPanic _).bind fun _ => (Causal.say _).bind fun _ => (Causal.say _).bind fun _ =>
      (Causal.say _).bind fun _ => (Causal.say _).bind fun _ => (Causal.say _).bind fun _ => (Causal.say _).bind fun _ =>
      (Causal.challenge _).bind fun _ => Causal.pure _).bind fun _ =>
    (Causal.ensure _ _).bind fun _ => (Causal.say _).bind fun _ => (Causal.say _).bind fun _ => (Causal.say _).bind fun _ =>
    (Causal.say _).bind fun _ => (Causal.orPanic _).bind fun _ => (Causal.eq _ _ _ _).bind fun _ =>
    (Causal.ensure _ _).bind fun _ => (Causal.challenge _).bind fun _ => (Causal.challenge _).bind fun _ =>
    (Causal.challenge _).bind fun _ => (Causal.scRounds _ _ _ _ _ _ _).bind fun _ => (Causal.inner _ _ _ _ _).bind fun _ =>
    (Causal.ensure _ _).bind fun _ => (Causal.orPanic _).bind fun _ => (Causal.eq _ _ _ _).bind fun _ =>
    (Causal.ensure _ _).bind fun _ => Causal.pure _

end Zkp.Sc
