/- The bulletproof-style reduction of the commitment proofs: prover against verifier. -/
import Verif.Model.CommitProofs
import Verif.Proof.SpartanRun
import Verif.Proof.Bulletproofs
import Verif.Proof.Multilinear

namespace Zkp.Cp

open Zkp.Ml Zkp.Spartan

set_option linter.unusedSectionVars false
set_option linter.unusedSimpArgs false

variable {F : Type} [Field F] {G : Type} [AddCommGroup G] [Module F G] [DecidableEq F] [DecidableEq G]

/-- A successful sequence consists of successful steps. -/
theorem bind_inv {α β : Type} {m : Vf F G α} {f : α → Vf F G β} {tr tr' : Transcript F G} {b : β}
    (h : (m >>= f) tr = .ok (b, tr')) : ∃ a tr1, m tr = .ok (a, tr1) ∧ f a tr1 = .ok (b, tr') := by
  change StateT.bind m f tr = _ at h
  unfold StateT.bind at h
  cases hm : m tr with
  | error e => rw [hm] at h; cases h
  | ok p => rw [hm] at h; exact ⟨p.1, p.2, rfl, h⟩

theorem say_inv {m : Msg F G} {tr tr' : Transcript F G} {u : Unit} (h : say m tr = .ok (u, tr')) :
    tr ++ [m] = tr' := by cases h; rfl

theorem challenge_inv {ch : Oracle F G} {l : String} {tr tr' : Transcript F G} {c : F}
    (h : challenge ch l tr = .ok (c, tr')) : ch (tr ++ [.chal l]) = c ∧ tr ++ [.chal l] = tr' := by
  cases h; exact ⟨rfl, rfl⟩

theorem ensure_inv {s : Stop} {b : Bool} {tr tr' : Transcript F G} {u : Unit}
    (h : ensure s b tr = .ok (u, tr')) : b = true ∧ tr = tr' := by
  cases b with
  | true => cases h; exact ⟨rfl, rfl⟩
  | false => cases h

theorem orPanic_inv {α : Type} {o : Option α} {tr tr' : Transcript F G} {a : α}
    (h : orPanic o tr = .ok (a, tr')) : o = some a ∧ tr = tr' := by
  cases o with
  | some x => cases h; exact ⟨rfl, rfl⟩
  | none => cases h

theorem pure_inv {α : Type} {a b : α} {tr tr' : Transcript F G}
    (h : (pure a : Vf F G α) tr = .ok (b, tr')) : a = b ∧ tr = tr' := by cases h; exact ⟨rfl, rfl⟩

theorem runs_of {α : Type} {m : Vf F G α} {tr tr' : Transcript F G} {a : α} (h : m tr = .ok (a, tr')) :
    Runs m tr (fun x t => a = x ∧ tr' = t) := ⟨a, tr', h, rfl, rfl⟩

theorem runs_eq {α : Type} {m : Vf F G α} {tr tr' : Transcript F G} {a : α}
    (h : Runs m tr (fun x t => a = x ∧ tr' = t)) : m tr = .ok (a, tr') := by
  obtain ⟨_, _, h, rfl, rfl⟩ := h; exact h

theorem dot_sRec (x : F) (xs : List F) (b : List F) (hb : b.length = 2 * 2 ^ xs.length) :
    dot b (Bp.sRec (x :: xs)) =
      dot (List.zipWith (fun l r => l * x⁻¹ + r * x) (b.take (2 ^ xs.length)) (b.drop (2 ^ xs.length)))
        (Bp.sRec xs) := by
  have h : dot b (Bp.sRec (x :: xs)) = dot (b.take (2 ^ xs.length)) ((Bp.sRec xs).map (x⁻¹ * ·)) +
      dot (b.drop (2 ^ xs.length)) ((Bp.sRec xs).map (x * ·)) := by
    conv_lhs => rw [← List.take_append_drop (2 ^ xs.length) b]
    rw [Bp.sRec, dot_append (by simp; omega)]
  have e : ∀ (l : List F) (k : F), dot l ((Bp.sRec xs).map (k * ·)) = k * dot l (Bp.sRec xs) := by
    intro l k
    rw [dot_comm, show (fun y => k * y) = (fun y : F => y * k) from funext fun y => mul_comm _ _, dot_map_mul,
      dot_comm, mul_comm]
  rw [h, e, e, dot_zipWith _ _ _ _ _ (by simp; omega)]

/-- What the loop of the prover returns, in terms of the challenges that the verifier recomputes. -/
theorem bulletLoop_ok (ch : Oracle F G) (q h : G) (k : Nat) (g : List G) (a b : List F) (blind : F)
    (blinds : List (F × F)) (p : Bullet F G) (tr tr' : Transcript F G) (ha : a.length = 2 ^ k)
    (hb : b.length = 2 ^ k) (hp : bulletLoop ch q h k g a b blind blinds tr = .ok (p, tr')) :
    2 ^ k ≤ g.length ∧ p.L.length = k ∧ p.R.length = k ∧
      ∃ xs, bulletChallenges ch p.L p.R tr = .ok (xs, tr') ∧
      xs.length = k ∧ (∀ x ∈ xs, x ≠ 0) ∧ dot b (Bp.sRec xs) = p.b ∧ msm g (Bp.sRec xs) = p.g ∧
      p.a • p.g + (p.a * p.b) • q + p.blind • h =
        msm p.L (xs.map fun x => x * x) + msm p.R (xs.map fun x => x⁻¹ * x⁻¹) +
          (msm g a + dot a b • q + blind • h) := by
  induction k generalizing g a b blind blinds p tr with
  | zero =>
    unfold bulletLoop at hp
    obtain ⟨_, _, h1, hp⟩ := bind_inv hp
    obtain ⟨-, rfl⟩ := ensure_inv h1
    obtain ⟨a0, _, h1, hp⟩ := bind_inv hp
    obtain ⟨ha0, rfl⟩ := orPanic_inv h1
    obtain ⟨b0, _, h1, hp⟩ := bind_inv hp
    obtain ⟨hb0, rfl⟩ := orPanic_inv h1
    obtain ⟨g0, _, h1, hp⟩ := bind_inv hp
    obtain ⟨hg0, rfl⟩ := orPanic_inv h1
    obtain ⟨rfl, rfl⟩ := pure_inv hp
    match a, b, g, ha, hb, ha0, hb0, hg0 with
    | [a], [b], g :: gs, _, _, ha0, hb0, hg0 =>
      simp only [List.getElem?_cons_zero, Option.some.injEq] at ha0 hb0 hg0
      subst ha0 hb0 hg0
      refine ⟨by simp, rfl, rfl, [], rfl, rfl, by simp, ?_, ?_, ?_⟩ <;> simp [Bp.sRec]
  | succ k ih =>
    rw [pow_succ] at ha hb ⊢
    unfold bulletLoop at hp
    obtain ⟨_, _, h1, hp⟩ := bind_inv hp
    obtain ⟨hg, rfl⟩ := ensure_inv h1
    have hg : 2 * 2 ^ k ≤ g.length := by simpa using hg
    obtain ⟨⟨bl, br⟩, _, h1, hp⟩ := bind_inv hp
    obtain ⟨-, rfl⟩ := orPanic_inv h1
    obtain ⟨_, _, h1, hp⟩ := bind_inv hp
    obtain rfl := say_inv h1
    obtain ⟨_, _, h1, hp⟩ := bind_inv hp
    obtain rfl := say_inv h1
    obtain ⟨x, _, h1, hp⟩ := bind_inv hp
    obtain ⟨hx, rfl⟩ := challenge_inv h1
    obtain ⟨_, _, h1, hp⟩ := bind_inv hp
    obtain ⟨hx0, rfl⟩ := ensure_inv h1
    have hx0 : x ≠ 0 := by simpa using hx0
    obtain ⟨p', _, h1, hp⟩ := bind_inv hp
    obtain ⟨rfl, rfl⟩ := pure_inv hp
    obtain ⟨l0, l1, l2, xs, hc, hl, hne, hbs, hgs, he⟩ := ih _ _ _ _ _ p' _ (by simp; omega) (by simp; omega) h1
    refine ⟨by omega, by simp [l1], by simp [l2], x :: xs, ?_, by simp [hl], ?_, ?_, ?_, ?_⟩
    · apply runs_eq
      unfold bulletChallenges
      refine Runs.say.bind fun _ _ e => ?_
      subst e
      refine Runs.say.bind fun _ _ e => ?_
      subst e
      refine Runs.challenge.bind fun y _ e => ?_
      obtain ⟨hy, rfl⟩ := e
      obtain rfl : y = x := hy.trans hx
      refine (Runs.ensure (by simpa using hx0)).bind fun _ _ e => ?_
      subst e
      exact (runs_of hc).bind fun ys t e => by obtain ⟨rfl, rfl⟩ := e; exact Runs.pure ⟨rfl, rfl⟩
    · intro y hy
      rcases List.mem_cons.mp hy with rfl | hy
      · exact hx0
      · exact hne y hy
    · rw [dot_sRec x xs b (by rw [hl]; omega), hl]; exact hbs
    · have := Bp.msm_sRec x xs g 1 (by rw [hl]; omega)
      simp only [one_mul, List.map_id'] at this
      rw [this, hl]; exact hgs
    · simp only [List.map_cons, msm_cons]
      rw [he]
      set n := 2 ^ k with hn
      have lenaL : (a.take n).length = n := by simp; omega
      have lenaR : (a.drop n).length = n := by simp; omega
      have lenbL : (b.take n).length = n := by simp; omega
      have lenbR : (b.drop n).length = n := by simp; omega
      have sa : msm g a = msm g (a.take n) + msm (g.drop n) (a.drop n) := by
        conv_lhs => rw [← List.take_append_drop n a]
        rw [msm_split _ _ _ (by omega), lenaL]
      have sd : dot a b = dot (a.take n) (b.take n) + dot (a.drop n) (b.drop n) := by
        conv_lhs => rw [← List.take_append_drop n a, ← List.take_append_drop n b]
        rw [dot_append (by omega)]
      have tg : msm (g.take n) (a.drop n) = msm g (a.drop n) := by
        have := msm_take g (a.drop n)
        rwa [lenaR] at this
      have iL : Bp.innerProduct (a.take n) (b.drop n) = dot (a.take n) (b.drop n) := rfl
      have iR : Bp.innerProduct (a.drop n) (b.take n) = dot (a.drop n) (b.take n) := rfl
      rw [Bp.fold_bases g n _ _ _ (by simp; omega) (by omega), msm_scalars_add _ _ _ _ _ (by omega),
        msm_scalars_add _ _ _ _ _ (by omega), dot_zipWith _ _ _ _ _ (by omega), dot_comm (a.take n),
        dot_comm (a.drop n), dot_zipWith _ _ _ _ _ (by omega), dot_zipWith _ _ _ _ _ (by omega),
        sa, sd, tg, iL, iR, dot_comm (a.take n) (b.take n), dot_comm (a.drop n) (b.drop n),
        dot_comm (a.take n) (b.drop n), dot_comm (a.drop n) (b.take n)]
      simp only [msm_cons, msm_nil_left]
      match_scalars <;> field_simp <;> ring

/-- With challenges that are not zero the loop succeeds. -/
theorem bulletLoop_some (ch : Oracle F G) (hch : ∀ t, ch (t ++ [.chal "x"]) ≠ 0) (q h : G) (k : Nat) (g : List G)
    (a b : List F) (blind : F) (blinds : List (F × F)) (tr : Transcript F G) (ha : a.length = 2 ^ k)
    (hb : b.length = 2 ^ k) (hg : 2 ^ k ≤ g.length) (hbl : k ≤ blinds.length) :
    Runs (bulletLoop ch q h k g a b blind blinds) tr (fun _ _ => True) := by
  induction k generalizing g a b blind blinds tr with
  | zero =>
    unfold bulletLoop
    match a, b, g, ha, hb, hg with
    | [a], [b], g :: gs, _, _, _ =>
      exact (Runs.ensure (by simp)).bind fun _ _ _ => (Runs.orPanic (a := a) rfl).bind fun _ _ _ =>
        (Runs.orPanic (a := b) rfl).bind fun _ _ _ => (Runs.orPanic (a := g) rfl).bind fun _ _ _ =>
        Runs.pure trivial
  | succ k ih =>
    rw [pow_succ] at ha hb hg
    match blinds, hbl with
    | (bl, br) :: blinds, hbl =>
      unfold bulletLoop
      refine (Runs.ensure (by simp; omega)).bind fun _ _ _ => (Runs.orPanic (a := (bl, br)) rfl).bind fun u _ e => ?_
      obtain ⟨rfl, rfl⟩ := e
      refine Runs.say.bind fun _ _ _ => Runs.say.bind fun _ _ _ => Runs.challenge.bind fun x _ e => ?_
      have hx : x ≠ 0 := by rw [e.1]; exact hch _
      refine (Runs.ensure (by simpa using hx)).bind fun _ _ _ => ?_
      refine (ih _ _ _ _ _ _ ?_ ?_ ?_ ?_).bind fun _ _ _ => Runs.pure trivial <;>
        simp only [List.length_zipWith, List.length_take, List.length_drop, List.tail_cons, List.length_cons] at * <;>
        omega

end Zkp.Cp
