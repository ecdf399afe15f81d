/- Two runs of the commitment scheme whose polynomials agree at the point that is opened: the same
commitments give the same opening. -/
import Verif.Proof.Kzg

set_option linter.unusedSectionVars false
set_option linter.unusedSimpArgs false

namespace Zkp.Kzg

open Polynomial

variable {F : Type} [Field F] [DecidableEq F]
variable {G1 G2 GT : Type} [AddCommGroup G1] [AddCommGroup G2] [AddCommGroup GT]
  [Module F G1] [Module F G2] [Module F GT]

/-- A polynomial with its commitment and blinding. -/
abbrev Opened (F G1 : Type) [Field F] := LabeledPolynomial F × LabeledCommitment G1 × Randomness F

/-- The same commitment, and the same values at `z` of polynomial and blinding. -/
structure Twin (z : F) (t t' : Opened F G1) : Prop where
  comm : t.2.1 = t'.2.1
  value : t.1.polynomial.eval z = t'.1.polynomial.eval z
  rand : t.2.2.rand.eval z = t'.2.2.rand.eval z
  shifted : t.2.2.shifted_rand.map (·.eval z) = t'.2.2.shifted_rand.map (·.eval z)

theorem Twin.rfl' {z : F} {t : Opened F G1} : Twin z t t := ⟨rfl, rfl, rfl, rfl⟩

theorem Twin.label {β z : F} {g γ : G1} {s : Nat} {t t' : Opened F G1} (h : Twin z t t')
    (hc : Commits β g γ s t.1 t.2.1 t.2.2) (hc' : Commits β g γ s t'.1 t'.2.1 t'.2.2) :
    t.1.label = t'.1.label := by rw [← hc.label, ← hc'.label, h.comm]

theorem Twin.bound {β z : F} {g γ : G1} {s : Nat} {t t' : Opened F G1} (h : Twin z t t')
    (hc : Commits β g γ s t.1 t.2.1 t.2.2) (hc' : Commits β g γ s t'.1 t'.2.1 t'.2.2) :
    t.1.degree_bound = t'.1.degree_bound := by rw [← hc.bound, ← hc'.bound, h.comm]

/-- The combined blinding has the same value at the point. -/
theorem openStep_rand {β : F} {g γ : G1} {s : Nat} {z ξ : F} {a a' b b' : F[X] × F[X] × F} {t t' : Opened F G1}
    (h : Twin z t t') (hb : t.1.degree_bound = t'.1.degree_bound)
    (e1 : a.2.1.eval z = a'.2.1.eval z) (e2 : a.2.2 = a'.2.2)
    (h1 : openStep s ξ a (t.1, t.2.2) = .ok b) (h2 : openStep s ξ a' (t'.1, t'.2.2) = .ok b') :
    b.2.1.eval z = b'.2.1.eval z ∧ b.2.2 = b'.2.2 := by
  unfold openStep at h1 h2
  dsimp only at h1 h2
  rw [← hb] at h2
  cases hd : t.1.degree_bound with
  | none =>
    rw [hd] at h1 h2
    have h1 := Except.ok.inj h1
    have h2 := Except.ok.inj h2
    subst h1 h2
    simp only [eval_add, eval_mul, eval_C, e1, e2, h.rand, and_self]
  | some d =>
    rw [hd] at h1 h2
    dsimp only at h1 h2
    have hs := h.shifted
    cases hr : t.2.2.shifted_rand with
    | none => rw [hr] at h1; cases h1
    | some sr =>
      cases hr' : t'.2.2.shifted_rand with
      | none => rw [hr'] at h2; cases h2
      | some sr' =>
        rw [hr] at h1
        rw [hr'] at h2
        rw [hr, hr'] at hs
        have hs : sr.eval z = sr'.eval z := Option.some.inj hs
        dsimp only at h1 h2
        split at h1
        · cases h1
        rename_i hle
        rw [if_neg hle] at h2
        have h1 := Except.ok.inj h1
        have h2 := Except.ok.inj h2
        subst h1 h2
        simp only [eval_add, eval_mul, eval_C, e1, e2, h.rand, hs, and_self]

theorem fold_rand {β : F} {g γ : G1} {s : Nat} {z ξ : F} {us us' : List (Opened F G1)}
    (h : List.Forall₂ (Twin z) us us') (hc : ∀ t ∈ us, Commits β g γ s t.1 t.2.1 t.2.2)
    (hc' : ∀ t ∈ us', Commits β g γ s t.1 t.2.1 t.2.2) : ∀ (a a' b b' : F[X] × F[X] × F),
    a.2.1.eval z = a'.2.1.eval z → a.2.2 = a'.2.2 →
    (us.map fun t => (t.1, t.2.2)).foldlM (openStep s ξ) a = .ok b →
    (us'.map fun t => (t.1, t.2.2)).foldlM (openStep s ξ) a' = .ok b' →
    b.2.1.eval z = b'.2.1.eval z := by
  induction h with
  | nil =>
    intro a a' b b' e1 _ h1 h2
    have h1 := Except.ok.inj h1
    have h2 := Except.ok.inj h2
    rw [← h1, ← h2, e1]
  | @cons t t' us us' ht _ ih =>
    intro a a' b b' e1 e2 h1 h2
    rw [List.map_cons, List.foldlM_cons] at h1 h2
    obtain ⟨a1, s1, h1⟩ := bind_ok h1
    obtain ⟨a2, s2, h2⟩ := bind_ok h2
    obtain ⟨f1, f2⟩ := openStep_rand (β := β) (g := g) (γ := γ) ht
      (ht.bound (hc t (by simp)) (hc' t' (by simp))) e1 e2 s1 s2
    exact ih (fun t ht => hc t (by simp [ht])) (fun t ht => hc' t (by simp [ht])) a1 a2 b b' f1 f2 h1 h2

/-- What the verifier reads of an opening. -/
def SameOpening (o o' : Proof F G1) : Prop := o.w = o'.w ∧ o.rand_v.getD 0 = o'.rand_v.getD 0

theorem pcOpen_twin {β : F} {g γ : G1} {s : Nat} {z ξ : F} (hz : β ≠ z) {us us' : List (Opened F G1)}
    (h : List.Forall₂ (Twin z) us us') (hc : ∀ t ∈ us, Commits β g γ s t.1 t.2.1 t.2.2)
    (hc' : ∀ t ∈ us', Commits β g γ s t.1 t.2.1 t.2.2) {o o' : Proof F G1}
    (ho : pcOpen ⟨pows β g (s + 1), pows β γ (s + 1), s⟩ (us.map (·.1)) z ξ (us.map (·.2.2)) = .ok o)
    (ho' : pcOpen ⟨pows β g (s + 1), pows β γ (s + 1), s⟩ (us'.map (·.1)) z ξ (us'.map (·.2.2)) = .ok o') :
    SameOpening o o' := by
  have hI0 : Inv β g γ s z (0, 0, 1) ((0 : G1), 0, 1) := ⟨by simp, by simp, rfl, by simp, by simp⟩
  obtain ⟨a1, b1, f1, f2, hI⟩ := fold_inv (z := z) (ξ := ξ) us hc (0, 0, 1) ((0 : G1), 0, 1) hI0
  obtain ⟨a2, b2, f3, f4, hI'⟩ := fold_inv (z := z) (ξ := ξ) us' hc' (0, 0, 1) ((0 : G1), 0, 1) hI0
  have hlist : (us.map fun t => (t.2.1, t.1.polynomial.eval z)) = us'.map fun t => (t.2.1, t.1.polynomial.eval z) := by
    clear hc hc' ho ho' f1 f2 f3 f4
    induction h with
    | nil => rfl
    | cons ht _ ih => rw [List.map_cons, List.map_cons, ih, ht.comm, ht.value]
  rw [hlist, f4] at f2
  have hb := Except.ok.inj f2
  subst hb
  have hr := fold_rand h hc hc' _ _ _ _ rfl rfl f1 f3
  unfold pcOpen at ho ho'
  rw [List.zip_map'] at ho ho'
  dsimp only at ho ho'
  rw [f1] at ho
  rw [f3] at ho'
  obtain ⟨w1, v1⟩ := openAt_ok (proof := o) (by have := hI.deg; omega) (by omega) (by have := hI.rdeg; omega) (by omega) ho
  obtain ⟨w2, v2⟩ := openAt_ok (proof := o') (by have := hI'.deg; omega) (by omega) (by have := hI'.rdeg; omega) (by omega) ho'
  refine ⟨?_, by rw [v1, v2, hr]⟩
  have hne : β - z ≠ 0 := sub_ne_zero.mpr hz
  have key : ∀ {a : F[X] × F[X] × F} {w : G1},
      w = (a.1 / (X - C z)).eval β • g + (a.2.1 / (X - C z)).eval β • γ →
      (β - z) • w = (a.1.eval β • g + a.2.1.eval β • γ) - a.1.eval z • g - a.2.1.eval z • γ := by
    intro a w hw
    rw [hw, smul_add, ← mul_smul, ← mul_smul, ← eval_div, ← eval_div]
    module
  have k1 := key w1
  have k2 := key w2
  rw [← hI.comm, ← hI.value, hr] at k1
  rw [← hI'.comm, ← hI'.value, ← k1] at k2
  have := congrArg (fun x => (β - z)⁻¹ • x) k2
  simpa [← mul_smul, inv_mul_cancel₀ hne] using this.symm

/-- Corresponding entries are the same, or twins at `β` that are only opened there. -/
def Pair (qs : List (String × F)) (z : F) (t t' : Opened F G1) : Prop :=
  t = t' ∨ (Twin z t t' ∧ ∀ x, (t.1.label, x) ∈ qs → x = z)

theorem Pair.twin {qs : List (String × F)} {z : F} {t t' : Opened F G1} (h : Pair qs z t t') : Twin z t t' := by
  rcases h with rfl | ⟨h, -⟩
  exacts [Twin.rfl', h]

theorem find_pair {qs : List (String × F)} {z : F} {x : String} {ts ts' : List (Opened F G1)}
    (h : List.Forall₂ (Pair qs z) ts ts')
    (hl : ∀ t t', Pair qs z t t' → t ∈ ts → t' ∈ ts' → t.1.label = t'.1.label) :
    Option.Rel (Pair qs z) (ts.find? fun t => t.1.label = x) (ts'.find? fun t => t.1.label = x) := by
  induction h with
  | nil => exact .none
  | @cons t t' ts ts' h1 _ ih =>
    rw [List.find?_cons, List.find?_cons, ← hl t t' h1 (by simp) (by simp)]
    split
    · exact .some h1
    · exact ih fun a a' hp ha ha' => hl a a' hp (by simp [ha]) (by simp [ha'])

theorem lookup_pair {qs : List (String × F)} {z : F} (x : String) {ts ts' : List (Opened F G1)}
    (h : List.Forall₂ (Pair qs z) ts ts')
    (hl : ∀ t t', Pair qs z t t' → t ∈ ts → t' ∈ ts' → t.1.label = t'.1.label) :
    Option.Rel (Pair qs z) (lookupLast (fun t => t.1.label) ts x) (lookupLast (fun t => t.1.label) ts' x) := by
  unfold lookupLast
  refine find_pair (List.forall₂_reverse_iff.mpr h) fun a a' hp ha ha' => hl a a' hp (by simpa using ha) (by simpa using ha')

theorem sel_pair {qs : List (String × F)} {z x : F} {ts ts' : List (Opened F G1)}
    (h : List.Forall₂ (Pair qs z) ts ts')
    (hl : ∀ t t', Pair qs z t t' → t ∈ ts → t' ∈ ts' → t.1.label = t'.1.label) :
    ∀ {ls : List String} {us us' : List (Opened F G1)}, (∀ l ∈ ls, (l, x) ∈ qs) →
    List.Forall₂ (fun l t => lookupLast (fun t => t.1.label) ts l = some t) ls us →
    List.Forall₂ (fun l t => lookupLast (fun t => t.1.label) ts' l = some t) ls us' →
    List.Forall₂ (fun t t' => t = t' ∨ (Twin z t t' ∧ x = z)) us us' := by
  intro ls us us' hm h1 h2
  induction h1 generalizing us' with
  | nil => cases h2; exact .nil
  | @cons l t ls us a1 _ ih =>
    cases h2 with
    | @cons _ t' _ us' a2 h2 =>
      refine .cons ?_ (ih (fun l hl => hm l (by simp [hl])) h2)
      have := lookup_pair l h hl
      rw [a1, a2] at this
      cases this with
      | some hp =>
        rcases hp with hp | ⟨hp, hq⟩
        · exact .inl hp
        · refine .inr ⟨hp, hq x ?_⟩
          have hlab : t.1.label = l := by
            unfold lookupLast at a1
            simpa using List.find?_some a1
          rw [hlab]
          exact hm l (by simp)

theorem openGroup_pair {β : F} {g γ : G1} {s : Nat} {z ξ : F} (hz : β ≠ z) {qs : List (String × F)}
    {ts ts' : List (Opened F G1)} (h : List.Forall₂ (Pair qs z) ts ts')
    (hc : ∀ t ∈ ts, Commits β g γ s t.1 t.2.1 t.2.2) (hc' : ∀ t ∈ ts', Commits β g γ s t.1 t.2.1 t.2.2)
    {grp : F × List String} (hg : ∀ l ∈ grp.2, (l, grp.1) ∈ qs) {o o' : Proof F G1}
    (ho : openGroup ⟨pows β g (s + 1), pows β γ (s + 1), s⟩ (ts.map fun t => (t.1, t.2.2)) ξ grp = .ok o)
    (ho' : openGroup ⟨pows β g (s + 1), pows β γ (s + 1), s⟩ (ts'.map fun t => (t.1, t.2.2)) ξ grp = .ok o') :
    SameOpening o o' := by
  have sel : ∀ {ts : List (Opened F G1)} {o : Proof F G1},
      openGroup ⟨pows β g (s + 1), pows β γ (s + 1), s⟩ (ts.map fun t => (t.1, t.2.2)) ξ grp = .ok o →
      (∀ t ∈ ts, Commits β g γ s t.1 t.2.1 t.2.2) →
      ∃ us : List (Opened F G1), List.Forall₂ (fun l t => lookupLast (fun t => t.1.label) ts l = some t) grp.2 us ∧
        pcOpen ⟨pows β g (s + 1), pows β γ (s + 1), s⟩ (us.map (·.1)) grp.1 ξ (us.map (·.2.2)) = .ok o ∧
        ∀ t ∈ us, Commits β g γ s t.1 t.2.1 t.2.2 := by
    intro ts o ho hc
    unfold openGroup at ho
    obtain ⟨sel, h1, ho2⟩ := bind_ok ho
    clear ho
    rename' ho2 => ho
    rw [mapM_ok] at h1
    simp only [lookupLast_map, orMissing] at h1
    obtain ⟨us, hu, hf⟩ := sel_exists h1
    subst hu
    refine ⟨us, hf, by simpa [List.map_map, Function.comp_def] using ho, fun u hu => hc u ?_⟩
    obtain ⟨i, hi, rfl⟩ := List.mem_iff_getElem.mp hu
    have := List.forall₂_iff_get.mp hf
    exact lookupLast_mem (this.2 i (by rw [this.1]; exact hi) hi)
  obtain ⟨us, f1, p1, q1⟩ := sel ho hc
  obtain ⟨us', f2, p2, q2⟩ := sel ho' hc'
  have hp := sel_pair (x := grp.1) h (fun t t' hp ht ht' => hp.twin.label (hc t ht) (hc' t' ht')) hg f1 f2
  by_cases hx : grp.1 = z
  · rw [hx] at p1 p2
    refine pcOpen_twin hz (hp.imp fun t t' h => ?_) q1 q2 p1 p2
    rcases h with rfl | ⟨h, -⟩
    exacts [Twin.rfl', h]
  · have : us = us' := by
      clear p1 p2 q1 q2 f1 f2
      induction hp with
      | nil => rfl
      | cons h1 _ ih =>
        rcases h1 with rfl | ⟨-, h1⟩
        · rw [ih]
        · exact absurd h1 hx
    subst this
    rw [p1] at p2
    have := Except.ok.inj p2
    subst this
    exact ⟨rfl, rfl⟩

theorem batchOpen_pair {β : F} {g γ : G1} {s : Nat} {z ξ : F} (hz : β ≠ z) {qs : List (String × F)}
    {ts ts' : List (Opened F G1)} (h : List.Forall₂ (Pair qs z) ts ts')
    (hc : ∀ t ∈ ts, Commits β g γ s t.1 t.2.1 t.2.2) (hc' : ∀ t ∈ ts', Commits β g γ s t.1 t.2.1 t.2.2)
    {os os' : List (Proof F G1)}
    (ho : batchOpen ⟨pows β g (s + 1), pows β γ (s + 1), s⟩ (ts.map (·.1)) qs ξ (ts.map (·.2.2)) = .ok os)
    (ho' : batchOpen ⟨pows β g (s + 1), pows β γ (s + 1), s⟩ (ts'.map (·.1)) qs ξ (ts'.map (·.2.2)) = .ok os') :
    List.Forall₂ SameOpening os os' := by
  unfold batchOpen at ho ho'
  rw [List.zip_map', mapM_ok] at ho ho'
  have hg : ∀ grp ∈ groups qs, ∀ l ∈ grp.2, (l, grp.1) ∈ qs := fun grp hgrp => mem_groups hgrp
  generalize groups qs = gs at *
  induction ho generalizing os' with
  | nil => cases ho'; exact .nil
  | @cons grp o gs os h1 _ ih =>
    cases ho' with
    | cons h2 ho' =>
      exact .cons (openGroup_pair hz h hc hc' (hg grp (by simp)) h1 h2)
        (ih ho' fun grp hgrp => hg grp (by simp [hgrp]))

/-- What is kept of a blinding polynomial. -/
noncomputable def kept (b : Option Nat) (r : F[X]) : F[X] := (b.map fun _ => r).getD 0

/-- The blinding of a commitment is the one drawn. -/
theorem commitOne_rand {ck : CommitterKey G1} {p : LabeledPolynomial F} {drawn : F[X] × F[X]}
    {c : LabeledCommitment G1} {r : Randomness F} (h : commitOne ck p drawn = .ok (c, r)) :
    r.rand = kept p.hiding_bound drawn.1 ∧
      r.shifted_rand = p.degree_bound.map fun _ => kept p.hiding_bound drawn.2 := by
  have key : ∀ {pw : Powers G1} {q : F[X]} {c : G1 × F[X]},
      commit pw p.polynomial (p.hiding_bound.map fun b => (b, q)) = .ok c → c.2 = kept p.hiding_bound q := by
    intro pw q c h
    unfold commit at h
    split at h
    · cases h
    obtain ⟨_, -, h⟩ := bind_ok h
    obtain ⟨y, -, h⟩ := bind_ok h
    cases hb : p.hiding_bound with
    | none =>
      rw [hb] at h
      have h := Except.ok.inj h
      rw [← h]
      rfl
    | some b =>
      rw [hb] at h
      obtain ⟨_, -, h⟩ := bind_ok h
      have h := Except.ok.inj h
      rw [← h]
      rfl
  unfold commitOne at h
  obtain ⟨c1, h1, h⟩ := bind_ok h
  obtain ⟨s, h2, h⟩ := bind_ok h
  have h := Except.ok.inj h
  have hr : r = ⟨c1.2, s.map (·.2)⟩ := (congrArg Prod.snd h).symm
  subst hr
  refine ⟨key h1, ?_⟩
  unfold commitShifted at h2
  cases hd : p.degree_bound with
  | none =>
    rw [hd] at h2
    have h2 := Except.ok.inj h2
    rw [← h2]
    rfl
  | some d =>
    rw [hd] at h2
    obtain ⟨pw, -, h2⟩ := bind_ok h2
    obtain ⟨r', h3, h2⟩ := bind_ok h2
    have h2 := Except.ok.inj h2
    rw [← h2]
    show some r'.2 = some _
    rw [key h3]

/-- Two polynomials whose commitments agree. -/
structure Alike (β : F) (g γ : G1) (s : Nat) (z : F) (p p' : LabeledPolynomial F) (d d' : F[X] × F[X]) : Prop where
  label : p.label = p'.label
  bound : p.degree_bound = p'.degree_bound
  hide : p.hiding_bound = p'.hiding_bound
  value : p.polynomial.eval z = p'.polynomial.eval z
  rand : (kept p.hiding_bound d.1).eval z = (kept p.hiding_bound d'.1).eval z
  shifted : p.degree_bound ≠ none → (kept p.hiding_bound d.2).eval z = (kept p.hiding_bound d'.2).eval z
  comm : p.polynomial.eval β • g + (kept p.hiding_bound d.1).eval β • γ
    = p'.polynomial.eval β • g + (kept p.hiding_bound d'.1).eval β • γ
  scomm : ∀ b, p.degree_bound = some b →
    (β ^ (s - b) * p.polynomial.eval β) • g + (kept p.hiding_bound d.2).eval β • γ
      = (β ^ (s - b) * p'.polynomial.eval β) • g + (kept p.hiding_bound d'.2).eval β • γ

theorem commitOne_twin {β : F} {g γ : G1} {s : Nat} {z : F} {p p' : LabeledPolynomial F} {d d' : F[X] × F[X]}
    (ha : Alike β g γ s z p p' d d')
    (hb : d.1.natDegree ≤ s ∧ d.2.natDegree ≤ s) (hb' : d'.1.natDegree ≤ s ∧ d'.2.natDegree ≤ s)
    {c c' : LabeledCommitment G1} {r r' : Randomness F}
    (h : commitOne ⟨pows β g (s + 1), pows β γ (s + 1), s⟩ p d = .ok (c, r))
    (h' : commitOne ⟨pows β g (s + 1), pows β γ (s + 1), s⟩ p' d' = .ok (c', r')) :
    Twin z (p, c, r) (p', c', r') := by
  have k := commitOne_commits (fun _ _ => hb) h
  have k' := commitOne_commits (fun _ _ => hb') h'
  obtain ⟨e1, e2⟩ := commitOne_rand h
  obtain ⟨e1', e2'⟩ := commitOne_rand h'
  rw [← ha.hide] at e1' e2'
  rw [← ha.bound] at e2'
  refine ⟨?_, ha.value, ?_, ?_⟩
  · have a1 : c.label = c'.label := by rw [k.label, k'.label, ha.label]
    have a2 : c.degree_bound = c'.degree_bound := by rw [k.bound, k'.bound, ha.bound]
    have a3 : c.commitment.comm = c'.commitment.comm := by
      rw [k.comm, k'.comm, e1, e1', ha.comm]
    have a4 : c.commitment.shifted_comm = c'.commitment.shifted_comm := by
      cases hd : p.degree_bound with
      | none => rw [k.none hd, k'.none (by rw [← ha.bound, hd])]
      | some b =>
        obtain ⟨-, -, sr, h1, -, h2⟩ := k.some b hd
        obtain ⟨-, -, sr', h1', -, h2'⟩ := k'.some b (by rw [← ha.bound, hd])
        rw [e2, hd] at h1
        rw [e2', hd] at h1'
        have h1 := Option.some.inj h1
        have h1' := Option.some.inj h1'
        rw [h2, h2', ← h1, ← h1', ha.scomm b hd]
    show c = c'
    obtain ⟨l, ⟨m, sm⟩, b⟩ := c
    obtain ⟨l', ⟨m', sm'⟩, b'⟩ := c'
    dsimp only at a1 a2 a3 a4
    rw [a1, a2, a3, a4]
  · show r.rand.eval z = r'.rand.eval z
    rw [e1, e1', ha.rand]
  · show r.shifted_rand.map _ = r'.shifted_rand.map _
    rw [e2, e2']
    cases hd : p.degree_bound with
    | none => rfl
    | some b =>
      exact congrArg some (ha.shifted (by rw [hd]; simp))

end Zkp.Kzg
