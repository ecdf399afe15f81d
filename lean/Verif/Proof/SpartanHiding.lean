/- Spartan's prover with challenges fixed beforehand: the same proof for another witness, by other random values. -/
import Verif.Proof.HidingRounds
import Verif.Proof.HidingDot
import Verif.Props.SpartanComplete

namespace Zkp.Spartan

open Zkp.Ml Zkp.Sc Zkp.Cp

set_option linter.unusedSectionVars false
set_option linter.unusedSimpArgs false

variable {F : Type} [Field F] {G : Type} [AddCommGroup G] [Module F G] [DecidableEq F] [DecidableEq G]

theorem yields_runs {α : Type} {m : Vf F G α} {n n' : Nat} {a : α} {P : α → Prop} (h : Yields m n a n')
    (hr : ∀ tr, Runs m tr fun a _ => P a) : P a := by
  obtain ⟨t1, h1, -⟩ := h (List.replicate n (.chal "")) (by simp)
  obtain ⟨b, t2, h2, hp⟩ := hr (List.replicate n (.chal ""))
  rw [h1] at h2
  obtain ⟨rfl, rfl⟩ := Prod.mk.inj (Except.ok.inj h2)
  exact hp

/-! ### The two sum-checks -/

/-- The last claim of the rounds. -/
theorem rounds_end {d : Nat} {round : List (List F) → F → Option (List F)} {f : (Nat → F) → F}
    (hF : Folds d round foldTables TablesOk (total f)) (ch : Oracle F G) (gen1 genN : MultiParams G)
    (rands : List (RoundRand F)) (claim blind : F) (ts : List (List F)) (hd : ∀ x ∈ rands, x.d.length = d + 1)
    (hok : TablesOk rands.length ts) (hc : claim = total f ts) {n n' : Nat} {p : ScProof F G} {rs : List F}
    {fin : List (List F)} {cl bl : F}
    (h : Yields (hidingRounds ch gen1 genN (d + 1) round rands claim blind ts) n (p, rs, fin, cl, bl) n') :
    fin = ts.map (fun t => [mle t rs]) ∧ cl = f fun i => (ts.map fun t => mle t rs).getD i 0 := by
  have key := yields_runs (P := fun out => out.2.1.length = rands.length ∧ foldAll foldTables ts out.2.1 = some out.2.2.1 ∧
    out.2.2.2.1 = total f out.2.2.1) h fun tr => by
      obtain ⟨a, t, e, h1, h2, h3, h4, h5⟩ := hidingRounds_run hF ch gen1 genN rands claim blind ts hd hok hc tr
      exact ⟨a, t, e, h1, h3, h4⟩
  obtain ⟨h1, h3, h4⟩ := key
  simp only at h1 h3 h4
  rw [foldAll_tables _ _ (by rw [h1]; exact hok.2)] at h3
  obtain rfl := Option.some.inj h3
  rw [total_final _ _ hok.1] at h4
  exact ⟨rfl, h4⟩

theorem phaseOne_same (h2 : (2 : F) ≠ 0) (h3 : (3 : F) ≠ 0) {ch : Oracle F G} (ho : Oblivious ch) (params : SatParams G)
    (hs1 : Spans F params.gen1.h) (hs4 : Spans F params.gen4.h) (a b c a' b' c' eq : List F) (rands : List (RoundRand F))
    (hd : ∀ x ∈ rands, x.d.length = 4) (hl : TablesOk rands.length [eq, a, b, c]) (hl' : TablesOk rands.length [eq, a', b', c'])
    (hc : 0 = total spartanOne [eq, a, b, c]) (hc' : 0 = total spartanOne [eq, a', b', c']) (n : Nat) (rx : List F)
    (hrx : rx = roundChals ch n rands.length) :
    ∃ (rands' : List (RoundRand F)) (p : ScProof F G) (bl bl' : F), rands'.length = rands.length ∧
      (∀ x ∈ rands', x.d.length = 4) ∧
      commitVec params.gen1.generators [mle eq rx * (mle a rx * mle b rx - mle c rx)] params.gen1.h bl =
        commitVec params.gen1.generators [mle eq rx * (mle a' rx * mle b' rx - mle c' rx)] params.gen1.h bl' ∧
      Yields (phaseOne ch params 0 a b c eq rands) n (p, rx, (mle a rx, mle b rx, mle c rx, mle eq rx), bl)
        (n + 11 * rands.length) ∧
      Yields (phaseOne ch params 0 a' b' c' eq rands') n (p, rx, (mle a' rx, mle b' rx, mle c' rx, mle eq rx), bl')
        (n + 11 * rands.length) := by
  have hF := cubicRound_folds h2 h3 (spartanOne_deg (F := F))
  obtain ⟨rands', p, fin, fin', cl, bl, cl', bl', e1, e2, e3, y, y'⟩ := rounds_same hF hF ho params.gen1 params.gen4 hs1 hs4 rands
    n 0 0 _ 0 0 _ hd hl hl' rfl
  rw [← hrx] at y y'
  obtain ⟨rfl, rfl⟩ := rounds_end hF ch _ _ _ _ _ _ hd hl hc y
  obtain ⟨rfl, rfl⟩ := rounds_end hF ch _ _ _ _ _ _ e2 (e1 ▸ hl') hc' y'
  refine ⟨rands', p, bl, bl', e1, e2, e3, ?_, ?_⟩
  · obtain ⟨-, hl⟩ := hl
    simp only [List.mem_cons, List.not_mem_nil, or_false, forall_eq_or_imp, forall_eq] at hl
    exact (Yields.ensure (by simp [hl])).bind (y.bind Yields.pure)
  · obtain ⟨-, hl⟩ := hl'
    simp only [List.mem_cons, List.not_mem_nil, or_false, forall_eq_or_imp, forall_eq] at hl
    exact (Yields.ensure (by simp [hl])).bind (y'.bind Yields.pure)

theorem phaseOne_rounds {ch : Oracle F G} {params : SatParams G} {a b c eq : List F} {rands : List (RoundRand F)} {n n' : Nat}
    {p : ScProof F G} {x : List F × (F × F × F × F) × F} (h : Yields (phaseOne ch params 0 a b c eq rands) n (p, x) n')
    (hy : ∃ out n', Yields (hidingRounds ch params.gen1 params.gen4 4 (cubicRound spartanOne) rands 0 0 [eq, a, b, c]) n out n') :
    ∃ y n', Yields (hidingRounds ch params.gen1 params.gen4 4 (cubicRound spartanOne) rands 0 0 [eq, a, b, c]) n (p, y) n' := by
  obtain ⟨⟨p', y⟩, m, hy⟩ := hy
  obtain ⟨t1, h1, -⟩ := h (List.replicate n (.chal "")) (by simp)
  obtain ⟨t2, h2, -⟩ := hy (List.replicate n (.chal "")) (by simp)
  unfold phaseOne at h1
  obtain ⟨_, _, e1, h1⟩ := bind_inv h1
  obtain ⟨_, rfl⟩ := ensure_inv e1
  obtain ⟨out, t3, e2, h1⟩ := bind_inv h1
  rw [h2] at e2
  obtain ⟨rfl, rfl⟩ := Prod.mk.inj (Except.ok.inj e2)
  obtain ⟨y1, y2, y3, y4⟩ := y
  simp only at h1
  split at h1
  · obtain ⟨e, -⟩ := pure_inv h1
    obtain ⟨rfl, -⟩ := Prod.mk.inj e
    exact ⟨_, _, hy⟩
  · cases h1

theorem phaseTwo_rounds {ch : Oracle F G} {params : SatParams G} {cl bl : F} {abc z : List F} {rands : List (RoundRand F)} {n n' : Nat}
    {p : ScProof F G} {x : List F × (F × F) × F} (h : Yields (phaseTwo ch params cl bl abc z rands) n (p, x) n')
    (hy : ∃ out n', Yields (hidingRounds ch params.gen1 params.gen3 3 (quadRound spartanTwo) rands cl bl [z, abc]) n out n') :
    ∃ y n', Yields (hidingRounds ch params.gen1 params.gen3 3 (quadRound spartanTwo) rands cl bl [z, abc]) n (p, y) n' := by
  obtain ⟨⟨p', y⟩, m, hy⟩ := hy
  obtain ⟨t1, h1, -⟩ := h (List.replicate n (.chal "")) (by simp)
  obtain ⟨t2, h2, -⟩ := hy (List.replicate n (.chal "")) (by simp)
  unfold phaseTwo at h1
  obtain ⟨_, _, e1, h1⟩ := bind_inv h1
  obtain ⟨_, rfl⟩ := ensure_inv e1
  obtain ⟨out, t3, e2, h1⟩ := bind_inv h1
  rw [h2] at e2
  obtain ⟨rfl, rfl⟩ := Prod.mk.inj (Except.ok.inj e2)
  obtain ⟨y1, y2, y3, y4⟩ := y
  simp only at h1
  obtain ⟨_, _, e3, h1⟩ := bind_inv h1
  obtain ⟨_, _, e4, h1⟩ := bind_inv h1
  obtain ⟨e, -⟩ := pure_inv h1
  obtain ⟨rfl, -⟩ := Prod.mk.inj e
  exact ⟨_, _, hy⟩

theorem phaseTwo_same (h2 : (2 : F) ≠ 0) {ch : Oracle F G} (ho : Oblivious ch) (params : SatParams G)
    (hs1 : Spans F params.gen1.h) (hs3 : Spans F params.gen3.h) (abc z z' : List F) (rands : List (RoundRand F)) (hne : rands ≠ [])
    (hd : ∀ x ∈ rands, x.d.length = 3) (hl : TablesOk rands.length [z, abc]) (hl' : TablesOk rands.length [z', abc])
    (claim blind claim' blind' : F)
    (hc : claim = total spartanTwo [z, abc]) (hc' : claim' = total spartanTwo [z', abc])
    (he : commitVec params.gen1.generators [claim] params.gen1.h blind = commitVec params.gen1.generators [claim'] params.gen1.h blind')
    (n : Nat) (ry : List F) (hry : ry = roundChals ch n rands.length) :
    ∃ (rands' : List (RoundRand F)) (p : ScProof F G) (bl bl' : F), rands'.length = rands.length ∧
      (∀ x ∈ rands', x.d.length = 3) ∧
      commitVec params.gen1.generators [mle z ry * mle abc ry] params.gen1.h bl =
        commitVec params.gen1.generators [mle z' ry * mle abc ry] params.gen1.h bl' ∧
      Yields (phaseTwo ch params claim blind abc z rands) n (p, ry, (mle abc ry, mle z ry), bl)
        (n + 11 * rands.length) ∧
      Yields (phaseTwo ch params claim' blind' abc z' rands') n (p, ry, (mle abc ry, mle z' ry), bl')
        (n + 11 * rands.length) := by
  have hF := quadRound_folds h2 (spartanTwo_deg (F := F))
  obtain ⟨rands', p, fin, fin', cl, bl, cl', bl', e1, e2, e3, y, y'⟩ := rounds_same hF hF ho params.gen1 params.gen3 hs1 hs3 rands
    n claim blind _ claim' blind' _ hd hl hl' he
  rw [← hry] at y y'
  obtain ⟨rfl, rfl⟩ := rounds_end hF ch _ _ _ _ _ _ hd hl hc y
  obtain ⟨rfl, rfl⟩ := rounds_end hF ch _ _ _ _ _ _ e2 (e1 ▸ hl') hc' y'
  have hn : rands.isEmpty = false := by simpa using hne
  have hn' : rands'.isEmpty = false := by
    have : rands' ≠ [] := fun h => hne (List.length_eq_zero_iff.1 (by rw [← e1, h]; rfl))
    simpa using this
  refine ⟨rands', p, bl, bl', e1, e2, e3, ?_, ?_⟩
  · obtain ⟨-, hl⟩ := hl
    simp only [List.mem_cons, List.not_mem_nil, or_false, forall_eq_or_imp, forall_eq] at hl
    unfold phaseTwo
    simp only [hn]
    exact (Yields.ensure (by simp [hl])).bind (y.bind ((Yields.orPanic (by rfl)).bind ((Yields.orPanic (by rfl)).bind Yields.pure)))
  · obtain ⟨-, hl⟩ := hl'
    simp only [List.mem_cons, List.not_mem_nil, or_false, forall_eq_or_imp, forall_eq] at hl
    unfold phaseTwo
    simp only [hn']
    exact (Yields.ensure (by simp [hl, e1])).bind (y'.bind ((Yields.orPanic (by rfl)).bind ((Yields.orPanic (by rfl)).bind Yields.pure)))

theorem phaseOne_inj (h2 : (2 : F) ≠ 0) (h3 : (3 : F) ≠ 0) {ch : Oracle F G} (ho : Oblivious ch) (params : SatParams G)
    (hs1 : Spans F params.gen1.h) (hs4 : Spans F params.gen4.h) (a b c eq : List F) (rands rands2 : List (RoundRand F))
    (hd : ∀ x ∈ rands, x.d.length = 4) (hd2 : ∀ x ∈ rands2, x.d.length = 4) (hl2 : rands2.length = rands.length)
    (hl : TablesOk rands.length [eq, a, b, c]) (n n1 n2 : Nat) (p : ScProof F G) (x y : List F × (F × F × F × F) × F)
    (h : Yields (phaseOne ch params 0 a b c eq rands) n (p, x) n1)
    (h' : Yields (phaseOne ch params 0 a b c eq rands2) n (p, y) n2) : rands = rands2 := by
  have hF := cubicRound_folds h2 h3 (spartanOne_deg (F := F))
  have run : ∀ rands : List (RoundRand F), (∀ x ∈ rands, x.d.length = 4) → TablesOk rands.length [eq, a, b, c] →
      ∃ out n', Yields (hidingRounds ch params.gen1 params.gen4 4 (cubicRound spartanOne) rands 0 0 [eq, a, b, c]) n out n' := by
    intro rands hd hl
    obtain ⟨_, _, _, _, _, _, _, _, _, _, _, y, _⟩ := rounds_same hF hF ho params.gen1 params.gen4 hs1 hs4 rands
      n 0 0 _ 0 0 _ hd hl hl rfl
    exact ⟨_, _, y⟩
  obtain ⟨_, _, y1⟩ := phaseOne_rounds h (run rands hd hl)
  obtain ⟨_, _, y2⟩ := phaseOne_rounds h' (run rands2 hd2 (hl2 ▸ hl))
  exact rounds_inj hF ho params.gen1 params.gen4 hs1 hs4 rands rands2 n _ _ 0 0 _ p _ _ hd hd2 hl2 hl y1 y2

theorem phaseTwo_inj (h2 : (2 : F) ≠ 0) {ch : Oracle F G} (ho : Oblivious ch) (params : SatParams G)
    (hs1 : Spans F params.gen1.h) (hs3 : Spans F params.gen3.h) (abc z : List F) (rands rands2 : List (RoundRand F))
    (hd : ∀ x ∈ rands, x.d.length = 3) (hd2 : ∀ x ∈ rands2, x.d.length = 3) (hl2 : rands2.length = rands.length)
    (hl : TablesOk rands.length [z, abc]) (cl bl : F) (n n1 n2 : Nat) (p : ScProof F G) (x y : List F × (F × F) × F)
    (h : Yields (phaseTwo ch params cl bl abc z rands) n (p, x) n1)
    (h' : Yields (phaseTwo ch params cl bl abc z rands2) n (p, y) n2) : rands = rands2 := by
  have hF := quadRound_folds h2 (spartanTwo_deg (F := F))
  have run : ∀ rands : List (RoundRand F), (∀ x ∈ rands, x.d.length = 3) → TablesOk rands.length [z, abc] →
      ∃ out n', Yields (hidingRounds ch params.gen1 params.gen3 3 (quadRound spartanTwo) rands cl bl [z, abc]) n out n' := by
    intro rands hd hl
    obtain ⟨_, _, _, _, _, _, _, _, _, _, _, y, _⟩ := rounds_same hF hF ho params.gen1 params.gen3 hs1 hs3 rands
      n cl bl _ cl bl _ hd hl hl rfl
    exact ⟨_, _, y⟩
  obtain ⟨_, _, y1⟩ := phaseTwo_rounds h (run rands hd hl)
  obtain ⟨_, _, y2⟩ := phaseTwo_rounds h' (run rands2 hd2 (hl2 ▸ hl))
  exact rounds_inj hF ho params.gen1 params.gen3 hs1 hs3 rands rands2 n _ _ cl bl _ p _ _ hd hd2 hl2 hl y1 y2

end Zkp.Spartan
