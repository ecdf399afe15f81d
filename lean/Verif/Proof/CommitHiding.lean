/- What the blinding values of the dot-product proof do to its messages. -/
import Verif.Proof.CommitProofs
import Verif.Spec.Hiding

namespace Zkp.Cp

open Zkp.Ml Zkp.Spartan

set_option linter.unusedSectionVars false
set_option linter.unusedSimpArgs false

variable {F : Type} [Field F] {G : Type} [AddCommGroup G] [Module F G] [DecidableEq F] [DecidableEq G]

theorem Oblivious.eq {ch : Oracle F G} (h : Oblivious ch) (t : Transcript F G) : ch t = chalAt ch t.length :=
  h _ _ (by simp)

theorem Spans.inj {h : G} (hs : Spans F h) {x y : F} (e : x • h = y • h) : x = y :=
  (hs (x • h)).unique rfl e

/-- Blinding values for given points. -/
theorem blinds_unique {h : G} (hs : Spans F h) (Ms Ns Ls Rs : List G) {k : Nat} (h1 : Ms.length = k)
    (h2 : Ns.length = k) (h3 : Ls.length = k) (h4 : Rs.length = k) :
    ∃! bs : List (F × F), bs.length = k ∧ List.zipWith (fun m b => m + b.1 • h) Ms bs = Ls ∧
      List.zipWith (fun m b => m + b.2 • h) Ns bs = Rs := by
  induction k generalizing Ms Ns Ls Rs with
  | zero =>
    obtain rfl := List.length_eq_zero_iff.1 h1
    obtain rfl := List.length_eq_zero_iff.1 h2
    obtain rfl := List.length_eq_zero_iff.1 h3
    obtain rfl := List.length_eq_zero_iff.1 h4
    exact ⟨[], by simp, fun bs hb => List.length_eq_zero_iff.1 hb.1⟩
  | succ k ih =>
    match Ms, Ns, Ls, Rs, h1, h2, h3, h4 with
    | M :: Ms, N :: Ns, L :: Ls, R :: Rs, h1, h2, h3, h4 =>
      obtain ⟨bs, ⟨e1, e2, e3⟩, hu⟩ := ih Ms Ns Ls Rs (by simpa using h1) (by simpa using h2)
        (by simpa using h3) (by simpa using h4)
      obtain ⟨x, hx, -⟩ := hs (L - M)
      obtain ⟨y, hy, -⟩ := hs (R - N)
      refine ⟨(x, y) :: bs, ⟨by simp [e1], ?_, ?_⟩, ?_⟩
      · simp only [List.zipWith_cons_cons, e2, ← hx]; simp
      · simp only [List.zipWith_cons_cons, e3, ← hy]; simp
      · rintro (_ | ⟨b, bs'⟩) ⟨f1, f2, f3⟩
        · simp at f1
        · simp only [List.zipWith_cons_cons, List.cons.injEq] at f2 f3
          obtain rfl := hu bs' ⟨by simpa using f1, f2.2, f3.2⟩
          congr 1
          refine Prod.ext (hs.inj ?_) (hs.inj ?_)
          · rw [← hx, ← f2.1]; abel
          · rw [← hy, ← f3.1]; abel

/-- The loop of the dot-product prover, for challenges fixed beforehand: the blinding values only shift
the points `L`, `R` by multiples of `h`. -/
theorem bulletLoop_blinds {ch : Oracle F G} (ho : Oblivious ch) (hne : ∀ t, ch (t ++ [.chal "x"]) ≠ 0)
    (q h : G) (k n : Nat) (g : List G) (a b : List F) (ha : a.length = 2 ^ k) (hb : b.length = 2 ^ k)
    (hg : 2 ^ k ≤ g.length) :
    ∃ (a0 b0 : F) (g0 : G) (Ms Ns : List G), Ms.length = k ∧ Ns.length = k ∧
      ∀ (blind : F) (blinds : List (F × F)) (tr : Transcript F G), tr.length = n → blinds.length = k →
        ∃ (bl : F) (tr' : Transcript F G), tr'.length = n + 3 * k ∧
          bulletLoop ch q h k g a b blind blinds tr = .ok (⟨List.zipWith (fun m b => m + b.1 • h) Ms blinds,
            List.zipWith (fun m b => m + b.2 • h) Ns blinds, a0, b0, g0, bl⟩, tr') := by
  induction k generalizing g a b n with
  | zero =>
    match a, b, g, ha, hb, hg with
    | [a], [b], g :: gs, _, _, _ =>
      refine ⟨a, b, g, [], [], rfl, rfl, fun blind blinds tr ht hl => ⟨blind, tr, by simpa using ht, ?_⟩⟩
      simp only [List.zipWith_nil_left]
      apply runs_eq
      unfold bulletLoop
      exact (Runs.ensure (by simp)).bind fun _ _ e => by
        subst e
        exact (Runs.orPanic (a := a) rfl).bind fun _ _ e => by
          obtain ⟨rfl, rfl⟩ := e
          exact (Runs.orPanic (a := b) rfl).bind fun _ _ e => by
            obtain ⟨rfl, rfl⟩ := e
            exact (Runs.orPanic (a := g) rfl).bind fun _ _ e => by
              obtain ⟨rfl, rfl⟩ := e
              exact Runs.pure ⟨rfl, rfl⟩
  | succ k ih =>
    have hp : 2 ^ (k + 1) = 2 ^ k + 2 ^ k := by rw [pow_succ]; omega
    set x := chalAt ch (n + 3)
    obtain ⟨a0, b0, g0, Ms, Ns, hM, hN, hrun⟩ := ih (n + 3)
      (List.zipWith (fun l r => x⁻¹ • l + x • r) (g.take (2 ^ k)) (g.drop (2 ^ k)))
      (List.zipWith (fun l r => l * x + r * x⁻¹) (a.take (2 ^ k)) (a.drop (2 ^ k)))
      (List.zipWith (fun l r => l * x⁻¹ + r * x) (b.take (2 ^ k)) (b.drop (2 ^ k)))
      (by simp; omega) (by simp; omega) (by simp; omega)
    refine ⟨a0, b0, g0,
      (msm (g.drop (2 ^ k)) (a.take (2 ^ k)) + Bp.innerProduct (a.take (2 ^ k)) (b.drop (2 ^ k)) • q) :: Ms,
      (msm (g.take (2 ^ k)) (a.drop (2 ^ k)) + Bp.innerProduct (a.drop (2 ^ k)) (b.take (2 ^ k)) • q) :: Ns,
      by simp [hM], by simp [hN], ?_⟩
    rintro blind (_ | ⟨⟨bl, br⟩, blinds⟩) tr ht hl
    · simp at hl
    set L := msm (g.drop (2 ^ k)) (a.take (2 ^ k)) +
      msm [q, h] [Bp.innerProduct (a.take (2 ^ k)) (b.drop (2 ^ k)), bl] with hL
    set R := msm (g.take (2 ^ k)) (a.drop (2 ^ k)) +
      msm [q, h] [Bp.innerProduct (a.drop (2 ^ k)) (b.take (2 ^ k)), br] with hR
    have ht3 : (tr ++ [.pt "L" L] ++ [.pt "R" R] ++ [.chal "x"] : Transcript F G).length = n + 3 := by
      simp [ht]
    have hx : ch (tr ++ [.pt "L" L] ++ [.pt "R" R] ++ [.chal "x"]) = x := by rw [ho.eq, ht3]
    obtain ⟨bl', tr', ht', hr⟩ := hrun (blind + x * x * bl + x⁻¹ * x⁻¹ * br) blinds
      (tr ++ [.pt "L" L] ++ [.pt "R" R] ++ [.chal "x"]) ht3 (by simpa using hl)
    refine ⟨bl', tr', by omega, ?_⟩
    apply runs_eq
    unfold bulletLoop
    simp only
    refine (Runs.ensure (decide_eq_true (by omega))).bind fun _ _ e => ?_
    subst e
    refine (Runs.orPanic (a := (bl, br)) rfl).bind fun _ _ e => ?_
    obtain ⟨rfl, rfl⟩ := e
    refine Runs.say.bind fun _ _ e => ?_
    subst e
    refine Runs.say.bind fun _ _ e => ?_
    subst e
    refine Runs.challenge.bind fun x' _ e => ?_
    obtain ⟨hx', rfl⟩ := e
    obtain rfl : x' = x := hx'.trans hx
    refine (Runs.ensure (decide_eq_true ?_)).bind fun _ _ e => ?_
    · rw [hx']; exact hne _
    subst e
    refine (runs_of hr).bind fun _ _ e => ?_
    obtain ⟨rfl, rfl⟩ := e
    refine Runs.pure ⟨?_, rfl⟩
    simp only [List.zipWith_cons_cons]
    congr 1
    · congr 1
      simp [msm]; abel
    · congr 1
      simp [msm]; abel

end Zkp.Cp
