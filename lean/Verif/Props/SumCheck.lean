/- C52: the sum-check provers of Spartan and Libra are complete. -/
import Verif.Proof.SumCheckHiding
import Verif.Proof.SumCheckBatch
import Verif.Proof.F17

namespace Zkp.Sc

open Zkp.Ml Zkp.Spartan

set_option linter.unusedSectionVars false
set_option linter.unusedSimpArgs false

variable {F : Type} [Field F] {G : Type} [AddCommGroup G] [Module F G] [DecidableEq F] [DecidableEq G]

/-! ### Libra -/

/-- Phase one of Libra: from any transcript and for every hash function the prover sends polynomials of
degree at most two that pass all round equations; the values it sends are the multilinear extensions at
the challenges, and the last claim is their combination. -/
theorem C52_libra_one (h2 : (2 : F) ≠ 0) (ch : Oracle F G) (f mul add1 add2 : List F) (n : Nat)
    (hf : f.length = 2 ^ n) (hm : mul.length = 2 ^ n) (h1 : add1.length = 2 ^ n) (h2' : add2.length = 2 ^ n)
    (claim : F) (hc : claim = ∑ j ∈ Finset.range (2 ^ n),
      (f.getD j 0 * mul.getD j 0 + f.getD j 0 * add1.getD j 0 + add2.getD j 0)) (tr : Transcript F G) :
    ∃ polys rs tr1, phaseOneProver ch f mul add1 add2 n claim tr =
        .ok ((⟨polys, [mle f rs, mle mul rs, mle add1 rs, mle add2 rs]⟩, rs),
          tr1 ++ [.frs "claim_final" [mle f rs, mle mul rs, mle add1 rs, mle add2 rs]]) ∧
      rs.length = n ∧ (∀ p ∈ polys, p.length ≤ 3) ∧ Sync ch "poly" polys rs tr tr1 ∧
      RoundsOk polys rs claim (mle f rs * mle mul rs + mle f rs * mle add1 rs + mle add2 rs) := by
  have hok : TablesOk n [f, mul, add1, add2] := ⟨by simp, by simp [hf, hm, h1, h2']⟩
  suffices h : Runs (phaseOneProver ch f mul add1 add2 n claim) tr fun out tr' =>
      out.2.length = n ∧ (∀ p ∈ out.1.polys, p.length ≤ 3) ∧
      out.1.values = [mle f out.2, mle mul out.2, mle add1 out.2, mle add2 out.2] ∧
      RoundsOk out.1.polys out.2 claim (mle f out.2 * mle mul out.2 + mle f out.2 * mle add1 out.2 + mle add2 out.2) ∧
      ∃ tr1, Sync ch "poly" out.1.polys out.2 tr tr1 ∧ tr' = tr1 ++ [.frs "claim_final" out.1.values] by
    obtain ⟨⟨⟨polys, values⟩, rs⟩, tr', e, a1, a2, a3, a4, tr1, a5, rfl⟩ := h
    simp only at a1 a2 a3 a4 a5 e
    subst a3
    exact ⟨polys, rs, tr1, e, a1, a2, a5, a4⟩
  unfold phaseOneProver
  refine (Runs.ensure (by simp [hf, hm, h1, h2'])).bind fun _ _ e => ?_
  subst e
  refine (plainRounds_run (quadRound_folds h2 libraOne_deg) ch "poly" n claim _ hok _).bind fun out tr' h => ?_
  obtain ⟨polys, rs, ts⟩ := out
  obtain ⟨b1, b2, b3, b4, b5, fin, b6, b7⟩ := h
  simp only at b1 b2 b3 b4 b5 b6 b7
  rw [foldAll_tables _ _ (by rw [b1]; exact hok.2)] at b4
  obtain rfl := Option.some.inj b4
  have htot : claim = total libraOne [f, mul, add1, add2] := by
    rw [hc, total, tableLen_eq hok]
    rfl
  have hfin := b7 htot
  rw [total_final _ _ (by simp)] at hfin
  refine (Runs.orPanic (heads_some _ _)).bind fun _ _ e => ?_
  obtain ⟨rfl, rfl⟩ := e
  refine Runs.say.bind fun _ _ e => ?_
  subst e
  refine Runs.pure ⟨b1, b2, rfl, ?_, _, b5, rfl⟩
  rw [hfin] at b6
  exact b6

/-- Phase two of Libra, in the same form; `fu` is the value from phase one. -/
theorem C52_libra_two (h2 : (2 : F) ≠ 0) (ch : Oracle F G) (f mul add : List F) (fu : F) (n : Nat)
    (hf : f.length = 2 ^ n) (hm : mul.length = 2 ^ n) (ha : add.length = 2 ^ n)
    (claim : F) (hc : claim = ∑ j ∈ Finset.range (2 ^ n),
      (mul.getD j 0 * f.getD j 0 * fu + add.getD j 0 * fu + add.getD j 0 * f.getD j 0)) (tr : Transcript F G) :
    ∃ polys rs tr1, phaseTwoProver ch f mul add fu n claim tr =
        .ok ((⟨polys, [mle f rs, mle mul rs, mle add rs]⟩, rs),
          tr1 ++ [.frs "claim_final" [mle f rs, mle mul rs, mle add rs]]) ∧
      rs.length = n ∧ (∀ p ∈ polys, p.length ≤ 3) ∧ Sync ch "poly" polys rs tr tr1 ∧
      RoundsOk polys rs claim (mle mul rs * mle f rs * fu + mle add rs * fu + mle add rs * mle f rs) := by
  have hok : TablesOk n [f, mul, add] := ⟨by simp, by simp [hf, hm, ha]⟩
  suffices h : Runs (phaseTwoProver ch f mul add fu n claim) tr fun out tr' =>
      out.2.length = n ∧ (∀ p ∈ out.1.polys, p.length ≤ 3) ∧
      out.1.values = [mle f out.2, mle mul out.2, mle add out.2] ∧
      RoundsOk out.1.polys out.2 claim (mle mul out.2 * mle f out.2 * fu + mle add out.2 * fu + mle add out.2 * mle f out.2) ∧
      ∃ tr1, Sync ch "poly" out.1.polys out.2 tr tr1 ∧ tr' = tr1 ++ [.frs "claim_final" out.1.values] by
    obtain ⟨⟨⟨polys, values⟩, rs⟩, tr', e, a1, a2, a3, a4, tr1, a5, rfl⟩ := h
    simp only at a1 a2 a3 a4 a5 e
    subst a3
    exact ⟨polys, rs, tr1, e, a1, a2, a5, a4⟩
  unfold phaseTwoProver
  refine (Runs.ensure (by simp [hf, hm, ha])).bind fun _ _ e => ?_
  subst e
  refine (plainRounds_run (quadRound_folds h2 (libraTwo_deg fu)) ch "poly" n claim _ hok _).bind fun out tr' h => ?_
  obtain ⟨polys, rs, ts⟩ := out
  obtain ⟨b1, b2, b3, b4, b5, fin, b6, b7⟩ := h
  simp only at b1 b2 b3 b4 b5 b6 b7
  rw [foldAll_tables _ _ (by rw [b1]; exact hok.2)] at b4
  obtain rfl := Option.some.inj b4
  have htot : claim = total (libraTwo fu) [f, mul, add] := by
    rw [hc, total, tableLen_eq hok]
    rfl
  have hfin := b7 htot
  rw [total_final _ _ (by simp)] at hfin
  refine (Runs.orPanic (heads_some _ _)).bind fun _ _ e => ?_
  obtain ⟨rfl, rfl⟩ := e
  refine Runs.say.bind fun _ _ e => ?_
  subst e
  refine Runs.pure ⟨b1, b2, rfl, ?_, _, b5, rfl⟩
  rw [hfin] at b6
  exact b6

/-- The round equations hold even for a wrong claim (the last claim is then wrong as well). -/
theorem C52_any_claim (h2 : (2 : F) ≠ 0) (ch : Oracle F G) (label : String) (f : (Nat → F) → F) (hf : SummandDeg 2 f)
    (ts : List (List F)) (n : Nat) (hts : TablesOk n ts) (claim : F) (tr : Transcript F G) :
    ∃ polys rs ts' tr' final, plainRounds ch label (quadRound f) foldTables n claim ts tr =
      .ok ((polys, rs, ts'), tr') ∧ RoundsOk polys rs claim final := by
  obtain ⟨⟨polys, rs, ts'⟩, tr', e, _, _, _, _, _, fin, h, _⟩ :=
    plainRounds_run (quadRound_folds h2 hf) ch label n claim ts hts tr
  exact ⟨polys, rs, ts', tr', fin, e, h⟩

theorem two17 : (2 : F17) ≠ 0 := by decide
theorem three17 : (3 : F17) ≠ 0 := by decide

/-- Four cells. -/
example : ∃ polys rs tr1, phaseOneProver (fun tr => ((3 * tr.length + 5 : Nat) : F17)) [1, 2, 3, 4] [5, 6, 7, 8] [1, 0, 2, 0]
      [9, 9, 1, 1] 2 12 ([] : Transcript F17 F17) =
        .ok ((⟨polys, [mle [1, 2, 3, 4] rs, mle [5, 6, 7, 8] rs, mle [1, 0, 2, 0] rs, mle [9, 9, 1, 1] rs]⟩, rs),
          tr1 ++ [.frs "claim_final" [mle [1, 2, 3, 4] rs, mle [5, 6, 7, 8] rs, mle [1, 0, 2, 0] rs, mle [9, 9, 1, 1] rs]]) ∧
      rs.length = 2 := by
  obtain ⟨polys, rs, tr1, h, h1, _⟩ := C52_libra_one two17 (fun tr => ((3 * tr.length + 5 : Nat) : F17)) [1, 2, 3, 4]
    [5, 6, 7, 8] [1, 0, 2, 0] [9, 9, 1, 1] 2 rfl rfl rfl rfl 12 (by decide) ([] : Transcript F17 F17)
  exact ⟨polys, rs, tr1, h, h1⟩

example : ∃ polys rs tr1, phaseTwoProver (fun tr => ((3 * tr.length + 5 : Nat) : F17)) [1, 2, 3, 4] [5, 6, 7, 8] [1, 0, 2, 0]
      3 2 5 ([] : Transcript F17 F17) =
        .ok ((⟨polys, [mle [1, 2, 3, 4] rs, mle [5, 6, 7, 8] rs, mle [1, 0, 2, 0] rs]⟩, rs),
          tr1 ++ [.frs "claim_final" [mle [1, 2, 3, 4] rs, mle [5, 6, 7, 8] rs, mle [1, 0, 2, 0] rs]]) ∧
      rs.length = 2 := by
  obtain ⟨polys, rs, tr1, h, h1, _⟩ := C52_libra_two two17 (fun tr => ((3 * tr.length + 5 : Nat) : F17)) [1, 2, 3, 4]
    [5, 6, 7, 8] [1, 0, 2, 0] 3 2 rfl rfl rfl 5 (by decide) ([] : Transcript F17 F17)
  exact ⟨polys, rs, tr1, h, h1⟩

/-! ### Spartan -/

/-- Phase one of Spartan: from any transcript, for every hash function, all parameters and all blinding
values, the committed rounds are accepted by the verifier, which draws the same challenges; the returned
values are the multilinear extensions at the challenges, and the verifier's last commitment is one to
`eq · (a · b - c)` of them, with the returned blinding factor. -/
theorem C52_spartan_one (h2 : (2 : F) ≠ 0) (h3 : (3 : F) ≠ 0) (ch : Oracle F G) (params : SatParams G)
    (a b c eq : List F) (rands : List (RoundRand F)) (hd : ∀ x ∈ rands, x.d.length = 4)
    (ha : a.length = 2 ^ rands.length) (hb : b.length = 2 ^ rands.length) (hc : c.length = 2 ^ rands.length)
    (he : eq.length = 2 ^ rands.length) (claim : F)
    (hcl : claim = ∑ j ∈ Finset.range (2 ^ rands.length), eq.getD j 0 * (a.getD j 0 * b.getD j 0 - c.getD j 0))
    (tr : Transcript F G) :
    ∃ proof rx blind tr', phaseOne ch params claim a b c eq rands tr =
        .ok ((proof, rx, (mle a rx, mle b rx, mle c rx, mle eq rx), blind), tr') ∧ rx.length = rands.length ∧
      scVerify ch params.gen1 params.gen4 proof (commitVec params.gen1.generators [claim] params.gen1.h (0 : F)) 4
        rands.length tr =
        .ok ((rx, commitVec params.gen1.generators [mle eq rx * (mle a rx * mle b rx - mle c rx)] params.gen1.h blind), tr') := by
  have hok : TablesOk rands.length [eq, a, b, c] := ⟨by simp, by simp [he, ha, hb, hc]⟩
  have htot : claim = total spartanOne [eq, a, b, c] := by
    rw [hcl, total, tableLen_eq hok]; rfl
  suffices h : Runs (phaseOne ch params claim a b c eq rands) tr fun out tr' =>
      out.2.1.length = rands.length ∧ out.2.2.1 = (mle a out.2.1, mle b out.2.1, mle c out.2.1, mle eq out.2.1) ∧
      scVerify ch params.gen1 params.gen4 out.1 (commitVec params.gen1.generators [claim] params.gen1.h (0 : F)) 4
        rands.length tr = .ok ((out.2.1, commitVec params.gen1.generators
          [mle eq out.2.1 * (mle a out.2.1 * mle b out.2.1 - mle c out.2.1)] params.gen1.h out.2.2.2), tr') by
    obtain ⟨⟨proof, rx, v, blind⟩, tr', e, a1, a2, a3⟩ := h
    simp only at a1 a2 a3 e
    subst a2
    exact ⟨proof, rx, blind, tr', e, a1, a3⟩
  unfold phaseOne
  refine (Runs.ensure (by simp [he, ha, hb, hc])).bind fun _ tr e => ?_
  subst e
  refine (hidingRounds_run (cubicRound_folds h2 h3 spartanOne_deg) ch params.gen1 params.gen4 rands claim 0 _ hd hok
    htot _).bind fun out tr' h => ?_
  obtain ⟨proof, rx, ts, cl, blind⟩ := out
  obtain ⟨b1, b2, b3, b4, b5⟩ := h
  simp only at b1 b2 b3 b4 b5
  rw [foldAll_tables _ _ (by rw [b1]; exact hok.2)] at b3
  obtain rfl := Option.some.inj b3
  rw [total_final _ _ (by simp)] at b4
  subst b4
  exact Runs.pure ⟨b1, rfl, b5⟩

/-- Phase two of Spartan, in the same form, with a hidden claim. -/
theorem C52_spartan_two (h2 : (2 : F) ≠ 0) (ch : Oracle F G) (params : SatParams G)
    (abc z : List F) (rands : List (RoundRand F)) (hn : rands ≠ []) (hd : ∀ x ∈ rands, x.d.length = 3)
    (ha : abc.length = 2 ^ rands.length) (hz : z.length = 2 ^ rands.length) (claim blindClaim : F)
    (hcl : claim = ∑ j ∈ Finset.range (2 ^ rands.length), z.getD j 0 * abc.getD j 0) (tr : Transcript F G) :
    ∃ proof ry blind tr', phaseTwo ch params claim blindClaim abc z rands tr =
        .ok ((proof, ry, (mle abc ry, mle z ry), blind), tr') ∧ ry.length = rands.length ∧
      scVerify ch params.gen1 params.gen3 proof (commitVec params.gen1.generators [claim] params.gen1.h blindClaim) 3
        rands.length tr =
        .ok ((ry, commitVec params.gen1.generators [mle z ry * mle abc ry] params.gen1.h blind), tr') := by
  have hok : TablesOk rands.length [z, abc] := ⟨by simp, by simp [hz, ha]⟩
  have htot : claim = total spartanTwo [z, abc] := by
    rw [hcl, total, tableLen_eq hok]; rfl
  suffices h : Runs (phaseTwo ch params claim blindClaim abc z rands) tr fun out tr' =>
      out.2.1.length = rands.length ∧ out.2.2.1 = (mle abc out.2.1, mle z out.2.1) ∧
      scVerify ch params.gen1 params.gen3 out.1 (commitVec params.gen1.generators [claim] params.gen1.h blindClaim) 3
        rands.length tr = .ok ((out.2.1, commitVec params.gen1.generators
          [mle z out.2.1 * mle abc out.2.1] params.gen1.h out.2.2.2), tr') by
    obtain ⟨⟨proof, rx, v, blind⟩, tr', e, a1, a2, a3⟩ := h
    simp only at a1 a2 a3 e
    subst a2
    exact ⟨proof, rx, blind, tr', e, a1, a3⟩
  unfold phaseTwo
  refine (Runs.ensure (by simp [hz, ha])).bind fun _ tr e => ?_
  subst e
  refine (hidingRounds_run (quadRound_folds h2 spartanTwo_deg) ch params.gen1 params.gen3 rands claim blindClaim _ hd hok
    htot _).bind fun out tr' h => ?_
  obtain ⟨proof, rx, ts, cl, blind⟩ := out
  obtain ⟨b1, b2, b3, b4, b5⟩ := h
  simp only at b1 b2 b3 b4 b5
  rw [foldAll_tables _ _ (by rw [b1]; exact hok.2)] at b3
  obtain rfl := Option.some.inj b3
  rw [total_final _ _ (by simp)] at b4
  subst b4
  refine (Runs.orPanic (by rfl)).bind fun _ _ e => ?_
  obtain ⟨rfl, rfl⟩ := e
  refine (Runs.orPanic (by rfl)).bind fun _ _ e => ?_
  obtain ⟨rfl, rfl⟩ := e
  have hne : rands.isEmpty = false := by simpa using hn
  simp only [hne]
  exact Runs.pure ⟨b1, rfl, b5⟩

/-- The rounds that the batched prover sends in the clear are accepted by the verifier. -/
theorem cubicRounds_sync (ch : Oracle F G) (polys : List (List F)) (rs : List F) (claim final : F)
    (tr tr' : Transcript F G) (hs : Sync ch "comm_poly" polys rs tr tr') (hr : RoundsOk polys rs claim final) :
    cubicRounds ch polys claim tr = .ok ((rs, final), tr') := by
  induction polys generalizing rs claim tr with
  | nil =>
    cases rs with
    | nil =>
      have e1 : tr = tr' := hs
      have e2 : claim = final := hr
      subst e1 e2; rfl
    | cons _ _ => exact hs.elim
  | cons p ps ih =>
    cases rs with
    | nil => exact hs.elim
    | cons r rs =>
      obtain ⟨s1, s2⟩ := hs
      obtain ⟨r1, r2⟩ := hr
      have : Runs (cubicRounds ch (p :: ps) claim) tr fun a t => a = (r :: rs, final) ∧ t = tr' := by
        unfold cubicRounds
        refine Runs.say.bind fun _ _ e => ?_
        subst e
        refine (Runs.ensure (by simpa using r1)).bind fun _ _ e => ?_
        subst e
        refine Runs.challenge.bind fun r' _ e => ?_
        obtain ⟨e, rfl⟩ := e
        obtain rfl : r' = r := e.trans s1.symm
        exact Runs.bind (P := fun a t => a = (rs, final) ∧ t = tr') ⟨_, _, ih _ _ _ s2 r2, rfl, rfl⟩
          fun a t e => by
            obtain ⟨rfl, rfl⟩ := e
            exact Runs.pure ⟨rfl, rfl⟩
      obtain ⟨a, t, h, rfl, rfl⟩ := this
      exact h

theorem foldAll_batch (t : Batch F) (rs : List F) (coeffs : List F) (h : BatchOk coeffs rs.length t) :
    foldAll foldBatch t rs = some ⟨t.aPar.map fun x => [mle x rs], t.bPar.map fun x => [mle x rs], [mle t.cPar rs],
      t.aSeq.map fun x => [mle x rs], t.bSeq.map fun x => [mle x rs], t.cSeq.map fun x => [mle x rs]⟩ := by
  have key : ∀ (ts : List (List F)) (rs : List F), (∀ x ∈ ts, x.length = 2 ^ rs.length) → rs = [] →
      ts = ts.map fun x => [mle x rs] := by
    intro ts rs h e
    subst e
    rw [List.map_congr_left (g := id), List.map_id]
    intro x hx
    have := h x hx
    rw [List.length_nil, pow_zero] at this
    obtain ⟨y, rfl⟩ := List.length_eq_one_iff.1 this
    simp [mle_nil]
  induction rs generalizing t with
  | nil =>
    obtain ⟨_, _, h3, h4⟩ := h
    simp only [foldAll, Option.some.injEq]
    obtain ⟨a, b, c, d, e, f⟩ := t
    simp only [Batch.mk.injEq]
    have hc := key [c] [] (by simpa using h4) rfl
    simp only [List.map_cons, List.map_nil, List.cons.injEq, and_true] at hc
    exact ⟨key a [] (fun x hx => h3 x (by simp [hx])) rfl, key b [] (fun x hx => h3 x (by simp [hx])) rfl, hc,
      key d [] (fun x hx => h3 x (by simp [hx])) rfl, key e [] (fun x hx => h3 x (by simp [hx])) rfl,
      key f [] (fun x hx => h3 x (by simp [hx])) rfl⟩
  | cons r rs ih =>
    obtain ⟨e1, e2⟩ := foldBatch_eq (n := rs.length) h r
    simp only [foldAll, e1, Option.bind_some]
    rw [ih _ e2]
    obtain ⟨_, _, h3, h4⟩ := h
    have hm : ∀ ts : List (List F), (∀ x ∈ ts, x.length = 2 ^ (rs.length + 1)) →
        (ts.map (folded · r)).map (fun x => [mle x rs]) = ts.map fun x => [mle x (r :: rs)] := by
      intro ts hts
      rw [List.map_map]
      apply List.map_congr_left
      intro x hx
      simp only [Function.comp, mle_folded x r rs (hts x hx)]
    simp only [Batch.folded, Option.some.injEq, Batch.mk.injEq, mle_folded t.cPar r rs h4, and_true, true_and]
    exact ⟨hm _ fun x hx => h3 x (by simp [hx]), hm _ fun x hx => h3 x (by simp [hx]),
      hm _ fun x hx => h3 x (by simp [hx]), hm _ fun x hx => h3 x (by simp [hx]), hm _ fun x hx => h3 x (by simp [hx])⟩

/-- The weighted sum over the hypercube of the products of each triple of tables: first the triples that
share the table `c`, then the others. -/
def cubicClaim (n : Nat) (t : Batch F) (coeffs : List F) : F :=
  (List.zipWith (fun (x : List F × List F) k => k * ∑ j ∈ Finset.range (2 ^ n),
      x.1.getD j 0 * x.2.getD j 0 * t.cPar.getD j 0) (t.aPar.zip t.bPar) coeffs).sum +
  (List.zipWith (fun (x : (List F × List F) × List F) k => k * ∑ j ∈ Finset.range (2 ^ n),
      x.1.1.getD j 0 * x.1.2.getD j 0 * x.2.getD j 0) ((t.aSeq.zip t.bSeq).zip t.cSeq)
    (coeffs.drop t.aPar.length)).sum

theorem zipWith_append_drop {α β γ : Type} (f : α → β → γ) (l l' : List α) (m : List β) (h : l.length ≤ m.length) :
    List.zipWith f (l ++ l') m = List.zipWith f l m ++ List.zipWith f l' (m.drop l.length) := by
  conv_lhs => rw [← List.take_append_drop l.length m, List.zipWith_append (by simp [h])]
  congr 1
  induction l generalizing m with
  | nil => simp
  | cons a l ih =>
    cases m with
    | nil => simp
    | cons b m => simp [ih m (by simpa using h)]

theorem batchTotal_eq (n : Nat) (t : Batch F) (coeffs : List F) (h : BatchOk coeffs n t) :
    batchTotal coeffs t = cubicClaim n t coeffs := by
  obtain ⟨h1, h2, h3, h4⟩ := id h
  have hz : (t.aPar.zip t.bPar).length = t.aPar.length := by simp [h1]
  have hle : t.aPar.length ≤ coeffs.length := by
    rw [h2]; simp [Batch.triples, h1]
  have hT := triples_ok h
  unfold batchTotal cubicClaim Batch.triples
  rw [zipWith_append_drop _ _ _ _ (by rw [List.length_map, hz]; exact hle), List.sum_append, List.length_map, hz,
    List.zipWith_map_left, List.zipWith_map_left]
  have e1 : ∀ T ∈ t.triples, total prod3 T = ∑ j ∈ Finset.range (2 ^ n), prod3 (cells T j) := by
    intro T hT'
    rw [total, tableLen_eq (hT T hT').1]
  congr 2
  · apply List.ext_getElem (by simp)
    intro i hi hi'
    simp only [List.getElem_zipWith]
    rw [e1, mul_comm]
    · rfl
    · exact List.mem_append_left _ (List.mem_map.2 ⟨_, List.getElem_mem _, rfl⟩)
  · apply List.ext_getElem (by simp)
    intro i hi hi'
    simp only [List.getElem_zipWith]
    rw [e1, mul_comm]
    · rfl
    · exact List.mem_append_right _ (List.mem_map.2 ⟨_, List.getElem_mem _, rfl⟩)

theorem heads_map (ts : List (List F)) (rs : List F) :
    heads (ts.map fun x => [mle x rs]) = some (ts.map fun t => mle t rs) := heads_some ts rs

/-- The combination of the final values. -/
def cubicFinal (rs : List F) (t : Batch F) (coeffs : List F) : F :=
  (List.zipWith (fun (x : List F × List F) k => k * (mle x.1 rs * mle x.2 rs * mle t.cPar rs))
    (t.aPar.zip t.bPar) coeffs).sum +
  (List.zipWith (fun (x : (List F × List F) × List F) k => k * (mle x.1.1 rs * mle x.1.2 rs * mle x.2 rs))
    ((t.aSeq.zip t.bSeq).zip t.cSeq) (coeffs.drop t.aPar.length)).sum

/-- The batched cubic prover: the verifier accepts the rounds with the same challenges, and its last claim
is the combination of the multilinear extensions, which the prover returns. -/
theorem C52_spartan_cubic (h2 : (2 : F) ≠ 0) (h3 : (3 : F) ≠ 0) (ch : Oracle F G) (n : Nat) (t : Batch F)
    (coeffs : List F) (hp : t.aPar.length = t.bPar.length)
    (hl : ∀ x ∈ t.aPar ++ t.bPar ++ t.aSeq ++ t.bSeq ++ t.cSeq, x.length = 2 ^ n) (hc : t.cPar.length = 2 ^ n)
    (hb : t.aSeq.length = t.bSeq.length) (hs : t.aSeq.length = t.cSeq.length)
    (hk : coeffs.length = t.aPar.length + t.aSeq.length) (tr : Transcript F G) :
    ∃ polys rs tr', cubicProver ch n (cubicClaim n t coeffs) t coeffs tr =
        .ok ((polys, rs, (t.aPar.map (mle · rs), t.bPar.map (mle · rs), mle t.cPar rs),
          (t.aSeq.map (mle · rs), t.bSeq.map (mle · rs), t.cSeq.map (mle · rs))), tr') ∧
      (∀ p ∈ polys, p.length ≤ 4) ∧
      cubicVerify ch polys n (cubicClaim n t coeffs) tr = .ok ((rs, cubicFinal rs t coeffs), tr') := by
  have hok : BatchOk coeffs n t := ⟨hp, by simp [Batch.triples, ← hp, ← hb, ← hs, hk], hl, hc⟩
  have hrun : Runs (cubicProver ch n (cubicClaim n t coeffs) t coeffs) tr fun out tr' =>
      out.2.2 = ((t.aPar.map (mle · out.2.1), t.bPar.map (mle · out.2.1), mle t.cPar out.2.1),
          (t.aSeq.map (mle · out.2.1), t.bSeq.map (mle · out.2.1), t.cSeq.map (mle · out.2.1))) ∧
      (∀ p ∈ out.1, p.length ≤ 4) ∧
      cubicVerify ch out.1 n (cubicClaim n t coeffs) tr = .ok ((out.2.1, cubicFinal out.2.1 t coeffs), tr') := by
    unfold cubicProver
    refine (plainRounds_run (batch_folds h2 h3 coeffs) ch "comm_poly" n _ t hok _).bind fun out tr' h => ?_
    obtain ⟨polys, rs, t'⟩ := out
    obtain ⟨b1, b2, b3, b4, b5, fin, b6, b7⟩ := h
    simp only at b1 b2 b3 b4 b5 b6 b7
    have hok' : BatchOk coeffs rs.length t := by rw [b1]; exact hok
    rw [foldAll_batch t rs coeffs hok'] at b4
    obtain rfl := Option.some.inj b4
    have hfin := b7 (batchTotal_eq n t coeffs hok).symm
    have hfin2 : fin = cubicFinal rs t coeffs := by
      rw [hfin, batchTotal_eq 0 _ coeffs b3]
      unfold cubicClaim cubicFinal
      simp only [List.zip_map, List.length_map, List.zipWith_map_left, pow_zero, Finset.sum_range_one, Prod.map,
        List.getD_cons_zero]
    rw [hfin2] at b6
    refine (Runs.orPanic (heads_map _ _)).bind fun _ _ e => ?_
    obtain ⟨rfl, rfl⟩ := e
    refine (Runs.orPanic (heads_map _ _)).bind fun _ _ e => ?_
    obtain ⟨rfl, rfl⟩ := e
    refine (Runs.orPanic (by rfl)).bind fun _ _ e => ?_
    obtain ⟨rfl, rfl⟩ := e
    refine (Runs.orPanic (heads_map _ _)).bind fun _ _ e => ?_
    obtain ⟨rfl, rfl⟩ := e
    refine (Runs.orPanic (heads_map _ _)).bind fun _ _ e => ?_
    obtain ⟨rfl, rfl⟩ := e
    refine (Runs.orPanic (heads_map _ _)).bind fun _ tr9 e => ?_
    obtain ⟨rfl, rfl⟩ := e
    refine Runs.pure ⟨rfl, b2, ?_⟩
    have hlen : polys.length = n := by
      rw [← b1]
      clear hfin hfin2 b7 b2
      generalize cubicClaim n t coeffs = cl at b6
      generalize cubicFinal rs t coeffs = fi at b6
      clear b1 b3 b4 hok' b5
      induction polys generalizing rs cl with
      | nil => cases rs with
        | nil => rfl
        | cons _ _ => exact b6.elim
      | cons p ps ih => cases rs with
        | nil => exact b6.elim
        | cons r rs => simp [ih rs _ b6.2]
    have : Runs (cubicVerify ch polys n (cubicClaim n t coeffs)) tr fun a u => a = (rs, cubicFinal rs t coeffs) ∧ u = tr9 := by
      unfold cubicVerify
      refine (Runs.ensure (by simpa using hlen)).bind fun _ _ e => ?_
      subst e
      exact ⟨_, _, cubicRounds_sync ch polys rs _ _ _ _ b5 b6, rfl, rfl⟩
    obtain ⟨a, u, h, rfl, rfl⟩ := this
    exact h
  obtain ⟨⟨polys, rs, v⟩, tr', e, a1, a2, a3⟩ := hrun
  simp only at a1 a2 a3 e
  subst a1
  exact ⟨polys, rs, tr', e, a2, a3⟩

/-- Random values for examples. -/
def exRand (n : Nat) : RoundRand F17 := ⟨3, 4, List.replicate n 5, 6, 7⟩

def exParams : SatParams F17 :=
  ⟨⟨2, ⟨2, [2, 3], 4⟩, ⟨1, [5], 4⟩⟩, ⟨1, [5], 4⟩, ⟨3, [6, 7, 8], 9⟩, ⟨4, [10, 11, 12, 13], 14⟩, 2⟩

/-- Two rounds of phase one with tables of four cells. -/
example : ∃ proof rx blind tr', phaseOne (fun tr => ((3 * tr.length + 5 : Nat) : F17)) exParams 1 [1, 2, 3, 4] [5, 6, 7, 8]
      [1, 0, 2, 0] [1, 1, 2, 1] [exRand 4, exRand 4] ([] : Transcript F17 F17) =
      .ok ((proof, rx, (mle [1, 2, 3, 4] rx, mle [5, 6, 7, 8] rx, mle [1, 0, 2, 0] rx, mle [1, 1, 2, 1] rx), blind), tr') := by
  obtain ⟨proof, rx, blind, tr', h, _⟩ := C52_spartan_one two17 three17 (fun tr => ((3 * tr.length + 5 : Nat) : F17))
    exParams [1, 2, 3, 4] [5, 6, 7, 8] [1, 0, 2, 0] [1, 1, 2, 1] [exRand 4, exRand 4] (by simp [exRand]) rfl rfl rfl rfl
    1 (by decide) []
  exact ⟨proof, rx, blind, tr', h⟩

/-- Two rounds of phase two. -/
example : ∃ proof ry blind tr', phaseTwo (fun tr => ((3 * tr.length + 5 : Nat) : F17)) exParams 2 9 [1, 2, 3, 4] [5, 6, 7, 8]
      [exRand 3, exRand 3] ([] : Transcript F17 F17) =
      .ok ((proof, ry, (mle [1, 2, 3, 4] ry, mle [5, 6, 7, 8] ry), blind), tr') := by
  obtain ⟨proof, rx, blind, tr', h, _⟩ := C52_spartan_two two17 (fun tr => ((3 * tr.length + 5 : Nat) : F17))
    exParams [1, 2, 3, 4] [5, 6, 7, 8] [exRand 3, exRand 3] (by simp) (by simp [exRand]) rfl rfl 2 9 (by decide) []
  exact ⟨proof, rx, blind, tr', h⟩

/-- Two triples with a shared table and one without. -/
example : ∃ polys rs tr', cubicProver (G := F17) (fun tr => ((3 * tr.length + 5 : Nat) : F17)) 2
      (cubicClaim 2 ⟨[[1, 2, 3, 4], [4, 3, 2, 1]], [[5, 6, 7, 8], [8, 7, 6, 5]], [1, 3, 5, 7], [[1, 1, 2, 2]], [[2, 1, 1, 2]],
        [[1, 1, 1, 3]]⟩ [1, 2, 3])
      ⟨[[1, 2, 3, 4], [4, 3, 2, 1]], [[5, 6, 7, 8], [8, 7, 6, 5]], [1, 3, 5, 7], [[1, 1, 2, 2]], [[2, 1, 1, 2]],
        [[1, 1, 1, 3]]⟩ [1, 2, 3] [] =
      .ok ((polys, rs, ([mle [1, 2, 3, 4] rs, mle [4, 3, 2, 1] rs], [mle [5, 6, 7, 8] rs, mle [8, 7, 6, 5] rs],
        mle [1, 3, 5, 7] rs), ([mle [1, 1, 2, 2] rs], [mle [2, 1, 1, 2] rs], [mle [1, 1, 1, 3] rs])), tr') := by
  obtain ⟨polys, rs, tr', h, _⟩ := C52_spartan_cubic (G := F17) two17 three17
    (fun tr => ((3 * tr.length + 5 : Nat) : F17)) 2
    ⟨[[1, 2, 3, 4], [4, 3, 2, 1]], [[5, 6, 7, 8], [8, 7, 6, 5]], [1, 3, 5, 7], [[1, 1, 2, 2]], [[2, 1, 1, 2]],
      [[1, 1, 1, 3]]⟩ [1, 2, 3] rfl (by simp) rfl rfl rfl rfl []
  exact ⟨polys, rs, tr', h⟩

/-- A wrong claim. -/
example : ∃ polys rs ts' tr' final, plainRounds (G := F17) (fun tr => ((3 * tr.length + 5 : Nat) : F17)) "poly"
      (quadRound spartanTwo) foldTables 2 3 [[1, 2, 3, 4], [5, 6, 7, 8]] [] = .ok ((polys, rs, ts'), tr') ∧
      RoundsOk polys rs 3 final :=
  C52_any_claim two17 _ _ _ spartanTwo_deg _ 2 ⟨by simp, by simp⟩ _ _

end Zkp.Sc
