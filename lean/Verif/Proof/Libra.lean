/- Libra's linear GKR protocol: one layer, and all layers. -/
import Verif.Props.LibraTables
import Verif.Props.SumCheck

namespace Zkp.Gkr

open Zkp.Ml Zkp.Spartan Zkp.Sc

set_option linter.unusedSectionVars false
set_option linter.unusedSimpArgs false

variable {F : Type} [Field F] {G : Type} [AddCommGroup G] [Module F G] [DecidableEq F] [DecidableEq G]

theorem runs_of {α : Type} {m : Vf F G α} {tr tr' : Transcript F G} {a : α} (h : m tr = .ok (a, tr')) :
    Runs m tr (fun x t => a = x ∧ tr' = t) := ⟨a, tr', h, rfl, rfl⟩

theorem runs_eq {α : Type} {m : Vf F G α} {tr tr' : Transcript F G} {a : α}
    (h : Runs m tr (fun x t => a = x ∧ tr' = t)) : m tr = .ok (a, tr') := by
  obtain ⟨_, _, h, rfl, rfl⟩ := h; exact h

theorem sync_length {ch : Oracle F G} {l : String} {polys : List (List F)} {rs : List F} {tr tr1 : Transcript F G}
    (h : Sync ch l polys rs tr tr1) : polys.length = rs.length := by
  induction polys generalizing rs tr with
  | nil => cases rs with
    | nil => rfl
    | cons _ _ => exact absurd h id
  | cons p ps ih => cases rs with
    | nil => exact absurd h id
    | cons r rs => simpa using ih h.2

/-- The verifier's rounds accept what the equations allow. -/
theorem plainVerify_run (ch : Oracle F G) (pre polys : List (List F)) (rs : List F) (claim final : F)
    (tr tr1 : Transcript F G) (hs : Sync ch "poly" polys rs tr tr1) (hr : RoundsOk polys rs claim final) :
    plainVerify ch (pre ++ polys) polys.length pre.length claim tr = .ok ((rs, final), tr1) := by
  induction polys generalizing pre rs claim tr with
  | nil => cases rs with
    | nil => obtain rfl := hs; obtain rfl := hr; rfl
    | cons _ _ => exact absurd hs id
  | cons p ps ih => cases rs with
    | nil => exact absurd hs id
    | cons r rs =>
      obtain ⟨h1, h2⟩ := hs
      obtain ⟨h3, h4⟩ := hr
      have ih := ih (pre ++ [p]) rs (polyEval p r) _ h2 h4
      simp only [List.append_assoc, List.singleton_append, List.length_append, List.length_singleton] at ih
      suffices h : Runs (plainVerify ch (pre ++ p :: ps) (p :: ps).length pre.length claim) tr
          fun out tr' => out = (r :: rs, final) ∧ tr' = tr1 by
        obtain ⟨a, t, h, rfl, rfl⟩ := h; exact h
      rw [List.length_cons]
      unfold plainVerify
      refine (Runs.orPanic (a := p) (by simp)).bind fun x tr e => ?_
      obtain ⟨rfl, rfl⟩ := e
      refine (Runs.ensure (by simpa using h3)).bind fun _ _ e => ?_
      subst e
      refine Runs.say.bind fun _ _ e => ?_
      subst e
      refine Runs.challenge.bind fun r' tr' e => ?_
      obtain ⟨hr', rfl⟩ := e
      obtain rfl : r' = r := hr'.trans h1.symm
      simp only [List.append_assoc] at ih ⊢
      exact (show Runs (plainVerify ch _ _ _ _) _ (fun out tr' => out = (rs, final) ∧ tr' = tr1) from
        ⟨_, _, ih, rfl, rfl⟩).bind fun out tr' e => by obtain ⟨rfl, rfl⟩ := e; exact Runs.pure ⟨rfl, rfl⟩

/-- One layer: the prover succeeds for a true claim, and the verifier accepts with the same transcript. -/
theorem layer_run (h2 : (2 : F) ≠ 0) (ch : Oracle F G) (raw : List (Nat × Nat × Nat)) (v : List F) (n : Nat)
    (gu gv : List F) (alpha beta claim : F) (h : gu.length = gv.length) (hv : v.length = 2 ^ n)
    (hk : raw.length ≤ 2 ^ gu.length) (hl : ∀ g ∈ raw, Legal (2 ^ n) g)
    (hc : claim = alpha * mle (raw.map (gateValue v)) gu + beta * mle (raw.map (gateValue v)) gv)
    (tr : Transcript F G) :
    ∃ p ru rv tr', proveLayer ch (gatesOf raw) v n gu gv alpha beta claim tr =
        .ok ((p, ru, rv, mle v ru, mle v rv), tr') ∧ ru.length = n ∧ rv.length = n ∧
      verifyLayer ch p n claim tr = .ok ((ru, rv, mle v ru, mle v rv), tr') := by
  have hg := gatesOf_ok raw (2 ^ gu.length) (2 ^ n) hk hl
  obtain ⟨mul, add1, add2, e1, l1, l2, l3, _⟩ := C60_phase_one gu gv (gatesOf raw) v n alpha beta h hv hg
  obtain ⟨_, _, _, e1', hsum⟩ := C60_claim gu gv raw v n alpha beta h hv hk hl
  rw [e1] at e1'
  obtain ⟨rfl, rfl, rfl⟩ : _ ∧ _ ∧ _ := by simpa using e1'
  obtain ⟨polys, ru, tr1, p1, p2, p3, p4, p5⟩ := C52_libra_one h2 ch v mul add1 add2 n hv l1 l2 l3 claim
    (hc.trans hsum.symm) tr
  obtain ⟨mul', add', e2, m1, m2, _⟩ := C60_phase_two gu gv ru (gatesOf raw) v n alpha beta h hv p2 hg
  obtain ⟨_, _, _, _, _, f1, f2, f3⟩ := C60_reduction gu gv ru (gatesOf raw) v n alpha beta h hv p2 hg
  rw [e1] at f1
  obtain ⟨rfl, rfl, rfl⟩ : _ ∧ _ ∧ _ := by simpa using f1
  rw [e2] at f2
  obtain ⟨rfl, rfl⟩ : _ ∧ _ := by simpa using f2
  obtain ⟨polys', rv, tr2, q1, q2, q3, q4, q5⟩ := C52_libra_two h2 ch v mul' add' (mle v ru) n hv m1 m2 _ f3
    (tr1 ++ [.frs "claim_final" [mle v ru, mle mul ru, mle add1 ru, mle add2 ru]])
  refine ⟨⟨⟨polys, [mle v ru, mle mul ru, mle add1 ru, mle add2 ru]⟩, ⟨polys', [mle v rv, mle mul' rv, mle add' rv]⟩⟩,
    ru, rv, tr2 ++ [.frs "claim_final" [mle v rv, mle mul' rv, mle add' rv]], ?_, p2, q2, ?_⟩
  · suffices hh : Runs (proveLayer ch (gatesOf raw) v n gu gv alpha beta claim) tr fun out tr' =>
        out = (⟨⟨polys, [mle v ru, mle mul ru, mle add1 ru, mle add2 ru]⟩, ⟨polys', [mle v rv, mle mul' rv, mle add' rv]⟩⟩,
          ru, rv, mle v ru, mle v rv) ∧ tr' = tr2 ++ [.frs "claim_final" [mle v rv, mle mul' rv, mle add' rv]] by
      obtain ⟨a, t, h, rfl, rfl⟩ := hh; exact h
    unfold proveLayer
    refine (Runs.orPanic e1).bind fun x tr e => ?_
    obtain ⟨rfl, rfl⟩ := e
    refine (show Runs _ _ _ from ⟨_, _, p1, Eq.refl _, Eq.refl _⟩ : Runs (phaseOneProver ch v mul add1 add2 n claim) tr
      fun out tr' => (⟨polys, [mle v ru, mle mul ru, mle add1 ru, mle add2 ru]⟩, ru) = out ∧
        tr1 ++ [.frs "claim_final" [mle v ru, mle mul ru, mle add1 ru, mle add2 ru]] = tr').bind fun x tr e => ?_
    obtain ⟨rfl, rfl⟩ := e
    refine (Runs.orPanic (a := mle v ru) (by rfl)).bind fun x tr e => ?_
    obtain ⟨rfl, rfl⟩ := e
    refine (Runs.orPanic (a := mle mul ru) (by rfl)).bind fun x tr e => ?_
    obtain ⟨rfl, rfl⟩ := e
    refine (Runs.orPanic (a := mle add1 ru) (by rfl)).bind fun x tr e => ?_
    obtain ⟨rfl, rfl⟩ := e
    refine (Runs.orPanic (a := mle add2 ru) (by rfl)).bind fun x tr e => ?_
    obtain ⟨rfl, rfl⟩ := e
    refine (Runs.orPanic e2).bind fun x tr e => ?_
    obtain ⟨rfl, rfl⟩ := e
    refine (show Runs _ _ _ from ⟨_, _, q1, Eq.refl _, Eq.refl _⟩ : Runs (phaseTwoProver ch v mul' add' (mle v ru) n _) _
      fun out tr' => (⟨polys', [mle v rv, mle mul' rv, mle add' rv]⟩, rv) = out ∧
        tr2 ++ [.frs "claim_final" [mle v rv, mle mul' rv, mle add' rv]] = tr').bind fun x tr e => ?_
    obtain ⟨rfl, rfl⟩ := e
    refine (Runs.orPanic (a := mle v rv) (by rfl)).bind fun x tr e => ?_
    obtain ⟨rfl, rfl⟩ := e
    exact Runs.pure ⟨rfl, rfl⟩
  · have v1 := plainVerify_run ch [] polys ru claim _ tr tr1 p4 p5
    have v2 := plainVerify_run ch [] polys' rv _ _ _ tr2 q4 q5
    simp only [List.nil_append, List.length_nil, sync_length p4, sync_length q4, p2, q2] at v1 v2
    suffices hh : Runs (verifyLayer ch ⟨⟨polys, [mle v ru, mle mul ru, mle add1 ru, mle add2 ru]⟩,
        ⟨polys', [mle v rv, mle mul' rv, mle add' rv]⟩⟩ n claim) tr fun out tr' =>
        out = (ru, rv, mle v ru, mle v rv) ∧ tr' = tr2 ++ [.frs "claim_final" [mle v rv, mle mul' rv, mle add' rv]] by
      obtain ⟨a, t, h, rfl, rfl⟩ := hh; exact h
    unfold verifyLayer
    refine (show Runs _ _ _ from ⟨_, _, v1, Eq.refl _, Eq.refl _⟩ : Runs (plainVerify ch polys n 0 claim) tr
      fun out tr' => (ru, mle v ru * mle mul ru + mle v ru * mle add1 ru + mle add2 ru) = out ∧ tr1 = tr').bind fun x tr e => ?_
    obtain ⟨rfl, rfl⟩ := e
    refine Runs.say.bind fun _ _ e => ?_
    subst e
    refine (Runs.orPanic (a := mle v ru) (by rfl)).bind fun x tr e => ?_
    obtain ⟨rfl, rfl⟩ := e
    refine (Runs.orPanic (a := mle mul ru) (by rfl)).bind fun x tr e => ?_
    obtain ⟨rfl, rfl⟩ := e
    refine (Runs.orPanic (a := mle add1 ru) (by rfl)).bind fun x tr e => ?_
    obtain ⟨rfl, rfl⟩ := e
    refine (Runs.orPanic (a := mle add2 ru) (by rfl)).bind fun x tr e => ?_
    obtain ⟨rfl, rfl⟩ := e
    refine (Runs.ensure (by simp)).bind fun _ _ e => ?_
    subst e
    refine (show Runs _ _ _ from ⟨_, _, v2, Eq.refl _, Eq.refl _⟩ : Runs (plainVerify ch polys' n 0 _) _
      fun out tr' => (rv, mle mul' rv * mle v rv * mle v ru + mle add' rv * mle v ru + mle add' rv * mle v rv) = out ∧
        tr2 = tr').bind fun x tr e => ?_
    obtain ⟨rfl, rfl⟩ := e
    refine Runs.say.bind fun _ _ e => ?_
    subst e
    refine (Runs.orPanic (a := mle v rv) (by rfl)).bind fun x tr e => ?_
    obtain ⟨rfl, rfl⟩ := e
    refine (Runs.orPanic (a := mle mul' rv) (by rfl)).bind fun x tr e => ?_
    obtain ⟨rfl, rfl⟩ := e
    refine (Runs.orPanic (a := mle add' rv) (by rfl)).bind fun x tr e => ?_
    obtain ⟨rfl, rfl⟩ := e
    refine (Runs.ensure (by simp)).bind fun _ _ e => ?_
    subst e
    exact Runs.pure ⟨rfl, rfl⟩

end Zkp.Gkr
