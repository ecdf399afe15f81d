/- The claims about the input layer (Hyrax and Libra), with challenges fixed beforehand. -/
import Verif.Proof.HidingDot
import Verif.Props.HyraxComplete

namespace Zkp.Hx

open Zkp.Ml Zkp.Spartan Zkp.Sc Zkp.Gkr Zkp.Cp

set_option linter.unusedSectionVars false
set_option linter.unusedSimpArgs false

variable {F : Type} [Field F] {G : Type} [AddCommGroup G] [Module F G] [DecidableEq F] [DecidableEq G]

theorem evalProve_yields {ch : Oracle F G} (params : PcParams G) (m : Nat) (w blinds ry : List F) (hw : w.length = 2 ^ m)
    (hb : blinds.length = 2 ^ (m / 2)) (hr : ry.length = m) (hn : 2 ^ (m - m / 2) ≤ params.n) (ryBlind eval d rBeta rDelta : F)
    (bl : List (F × F)) (n n' : Nat) (proof : DotProof F G) (cx cy : G)
    (Y : Yields (logDotProve ch "c" params (rowComb w (ry.take (m / 2)) (ry.drop (m / 2))) (blindComb blinds (ry.take (m / 2)))
      (evalEq (ry.drop (m / 2))) eval ryBlind d rBeta rDelta bl) n (proof, cx, cy) n') :
    Yields (evalProve ch params w blinds ry ryBlind eval d rBeta rDelta bl) n (proof, cy) n' := by
  have l2 : (ry.drop (m / 2)).length = m - m / 2 := by simp [hr]
  unfold evalProve
  refine (combineRows_yields m w blinds ry hw hb hr n).bind ?_
  have hx : (rowComb w (ry.take (m / 2)) (ry.drop (m / 2))).length = 2 ^ (m - m / 2) := by unfold rowComb; simp [l2]
  refine Yields.bind (a := ()) (n' := n) ?_ (Y.bind Yields.pure)
  unfold logDotAsserts
  simp only [hx, evalEq_length, l2]
  exact (Yields.ensure (by simp)).bind (Yields.ensure (by simpa using hn))

theorem evalProve_same {ch : Oracle F G} (ho : Oblivious ch) (hne : ∀ t, ch (t ++ [.chal "x"]) ≠ 0)
    (params : PcParams G) (hh : params.genN.h = params.gen1.h) (hs : Spans F params.gen1.h)
    (h1 : params.gen1.generators ≠ []) (m : Nat) (w w' blinds blinds' ry : List F) (hw : w.length = 2 ^ m)
    (hw' : w'.length = 2 ^ m) (hb : blinds.length = 2 ^ (m / 2)) (hb' : blinds'.length = 2 ^ (m / 2)) (hr : ry.length = m)
    (hg : 2 ^ (m - m / 2) ≤ params.genN.generators.length) (hn : 2 ^ (m - m / 2) ≤ params.n)
    (hc : rowComms params.genN.generators params.genN.h m w' blinds' = rowComms params.genN.generators params.genN.h m w blinds)
    (ryBlind ryBlind' : F)
    (he : commitVec params.gen1.generators [mle w ry] params.gen1.h ryBlind =
      commitVec params.gen1.generators [mle w' ry] params.gen1.h ryBlind')
    (d rBeta rDelta : F) (bl : List (F × F)) (hbl : bl.length = m - m / 2) (n : Nat) :
    ∃ (d' rBeta' rDelta' : F) (bl' : List (F × F)) (proof : DotProof F G), bl'.length = m - m / 2 ∧
      Yields (evalProve ch params w blinds ry ryBlind (mle w ry) d rBeta rDelta bl) n
        (proof, commitVec params.gen1.generators [mle w ry] params.gen1.h ryBlind) (n + 3 * (m - m / 2) + 5) ∧
      Yields (evalProve ch params w' blinds' ry ryBlind' (mle w' ry) d' rBeta' rDelta' bl') n
        (proof, commitVec params.gen1.generators [mle w ry] params.gen1.h ryBlind) (n + 3 * (m - m / 2) + 5) := by
  obtain ⟨r1, hr1⟩ : ∃ r1, r1 = ry.take (m / 2) := ⟨_, rfl⟩
  obtain ⟨r2, hr2⟩ : ∃ r2, r2 = ry.drop (m / 2) := ⟨_, rfl⟩
  have l1 : r1.length = m / 2 := by rw [hr1]; simp [hr]; omega
  have l2 : r2.length = m - m / 2 := by rw [hr2]; simp [hr]
  have hry : r1 ++ r2 = ry := by rw [hr1, hr2]; exact List.take_append_drop _ _
  have hx : ∀ w : List F, (rowComb w r1 r2).length = 2 ^ (m - m / 2) := fun w => by unfold rowComb; simp [l2]
  have hy : ∀ w : List F, dot (rowComb w r1 r2) (evalEq r2) = mle w ry := fun w => by
    rw [← hry]; exact dot_rows w r1 r2
  have hcx : ∀ w blinds : List F, commitVec params.genN.generators (rowComb w r1 r2) params.genN.h (blindComb blinds r1) =
      commitVec (rowComms params.genN.generators params.genN.h m w blinds) (evalEq r1) params.genN.h (0 : F) := by
    intro w blinds
    unfold rowComms rowComb blindComb
    rw [← l1, show m - r1.length = r2.length by omega]
    exact (commit_rows params.genN.generators params.genN.h w blinds r1 (2 ^ r2.length)).symm
  obtain ⟨d', rB', rD', bl', proof, cx, cy, hl', Y, Y'⟩ := logDot_same ho hne "c" params hh hs h1
    (rowComb w r1 r2) (rowComb w' r1 r2) (evalEq r2) (m - m / 2) (hx w) (hx w') (by rw [evalEq_length, l2]) hg
    (blindComb blinds r1) (blindComb blinds' r1) (mle w ry) ryBlind (mle w' ry) ryBlind' (hy w) (hy w') he
    (by rw [hcx, hcx, hc]) d rBeta rDelta bl hbl n
  obtain ⟨proof2, -, -, Y2⟩ := logDot_yields ho hne "c" params h1 (rowComb w r1 r2) (evalEq r2) (m - m / 2) (hx w)
    (by rw [evalEq_length, l2]) hg (blindComb blinds r1) (mle w ry) ryBlind d rBeta rDelta bl hbl n
  obtain ⟨rfl, rfl, rfl⟩ : proof2 = proof ∧ _ = cx ∧ _ = cy := by simpa only [Prod.mk.injEq] using (Y2.unique Y).1
  rw [hr1, hr2] at Y Y'
  exact ⟨d', rB', rD', bl', proof2, hl', evalProve_yields params m w blinds ry hw hb hr hn _ _ _ _ _ _ _ _ _ _ _ Y,
    evalProve_yields params m w' blinds' ry hw' hb' hr hn _ _ _ _ _ _ _ _ _ _ _ Y'⟩

theorem evalProve_inj {ch : Oracle F G} (ho : Oblivious ch) (hne : ∀ t, ch (t ++ [.chal "x"]) ≠ 0)
    (params : PcParams G) (hh : params.genN.h = params.gen1.h) (hs : Spans F params.gen1.h)
    (h1 : params.gen1.generators ≠ []) (m : Nat) (w blinds ry : List F) (hw : w.length = 2 ^ m)
    (hb : blinds.length = 2 ^ (m / 2)) (hr : ry.length = m)
    (hg : 2 ^ (m - m / 2) ≤ params.genN.generators.length) (hn : 2 ^ (m - m / 2) ≤ params.n)
    (ryBlind d rBeta rDelta d' rBeta' rDelta' : F) (bl bl' : List (F × F)) (hbl : bl.length = m - m / 2)
    (hbl' : bl'.length = m - m / 2) (n n1 n2 : Nat) (proof : DotProof F G) (u v : G)
    (h : Yields (evalProve ch params w blinds ry ryBlind (mle w ry) d rBeta rDelta bl) n (proof, u) n1)
    (h' : Yields (evalProve ch params w blinds ry ryBlind (mle w ry) d' rBeta' rDelta' bl') n (proof, v) n2) :
    d = d' ∧ rBeta = rBeta' ∧ rDelta = rDelta' ∧ bl = bl' := by
  have l2 : (ry.drop (m / 2)).length = m - m / 2 := by simp [hr]
  have hx : (rowComb w (ry.take (m / 2)) (ry.drop (m / 2))).length = 2 ^ (m - m / 2) := by unfold rowComb; simp [l2]
  have hy : mle w ry = dot (rowComb w (ry.take (m / 2)) (ry.drop (m / 2))) (evalEq (ry.drop (m / 2))) := by
    conv_lhs => rw [← List.take_append_drop (m / 2) ry]
    exact (dot_rows w _ _).symm
  rw [hy] at h h'
  obtain ⟨p1, -, -, Y1⟩ := logDot_yields ho hne "c" params h1 _ (evalEq (ry.drop (m / 2))) (m - m / 2) hx
    (by rw [evalEq_length, l2]) hg (blindComb blinds (ry.take (m / 2))) (dot _ (evalEq (ry.drop (m / 2)))) ryBlind d rBeta rDelta
    bl hbl n
  obtain ⟨p2, -, -, Y2⟩ := logDot_yields ho hne "c" params h1 _ (evalEq (ry.drop (m / 2))) (m - m / 2) hx
    (by rw [evalEq_length, l2]) hg (blindComb blinds (ry.take (m / 2))) (dot _ (evalEq (ry.drop (m / 2)))) ryBlind d' rBeta' rDelta'
    bl' hbl' n
  have k1 := evalProve_yields params m w blinds ry hw hb hr hn _ _ _ _ _ _ _ _ _ _ _ Y1
  have k2 := evalProve_yields params m w blinds ry hw hb hr hn _ _ _ _ _ _ _ _ _ _ _ Y2
  obtain rfl := (Prod.mk.inj (k1.unique h).1).1
  obtain rfl := (Prod.mk.inj (k2.unique h').1).1
  exact logDot_inj ho hne "c" params hh hs h1 _ (evalEq (ry.drop (m / 2))) (m - m / 2) hx
    (by rw [evalEq_length, l2]) hg (blindComb blinds (ry.take (m / 2))) ryBlind d rBeta rDelta bl hbl d' rBeta' rDelta' bl' hbl' n _ _
    p2 _ _ Y1 Y2

theorem input_yields {ch : Oracle F G} (params : Params G) (w blinds qa q : List F) (x rx : F) (r : InputRand F) (hq : 1 ≤ q.length)
    (hl : w.length ≤ 2 ^ (qa ++ q.tail).length) (n n1 n2 : Nat) (proof : DotProof F G) (cy : G) (E : Spartan.EqProof F G)
    (Y : Yields (evalProve ch params.pc w blinds (qa ++ q.tail) r.eval (mle w (qa ++ q.tail)) r.d r.rBeta r.rDelta r.bullet) n
      (proof, cy) n1)
    (Z : Yields (eqProve ch params.pc.gen1 x rx x ((1 - q.headD 0) * r.eval) r.eq) n1 E n2) :
    Yields (inputProve ch params w blinds qa q x rx r) n (proof, cy, E) n2 := by
  unfold inputProve
  exact (Yields.ensure (by simpa using hq)).bind ((Yields.orPanic (evalValue_eq w (qa ++ q.tail) hl)).bind (Y.bind (Z.bind Yields.pure)))

/-- One claim about the input layer for two witnesses in the same commitments and two values in the same commitment. -/
theorem input_same {ch : Oracle F G} (ho : Oblivious ch) (hne : ∀ t, ch (t ++ [.chal "x"]) ≠ 0)
    (params : Params G) (hh : params.pc.genN.h = params.pc.gen1.h) (hs : Spans F params.pc.gen1.h)
    (h1 : params.pc.gen1.generators ≠ []) (m : Nat) (w w' blinds blinds' qa q : List F) (hw : w.length = 2 ^ m)
    (hw' : w'.length = 2 ^ m) (hb : blinds.length = 2 ^ (m / 2)) (hb' : blinds'.length = 2 ^ (m / 2)) (hq : 1 ≤ q.length)
    (hr : (qa ++ q.tail).length = m)
    (hg : 2 ^ (m - m / 2) ≤ params.pc.genN.generators.length) (hn : 2 ^ (m - m / 2) ≤ params.pc.n)
    (hc : rowComms params.pc.genN.generators params.pc.genN.h m w' blinds' =
      rowComms params.pc.genN.generators params.pc.genN.h m w blinds)
    (x rx x' rx' I : F) (hx : x = (1 - q.headD 0) * mle w (qa ++ q.tail) + I)
    (hx' : x' = (1 - q.headD 0) * mle w' (qa ++ q.tail) + I)
    (he : commitVec params.pc.gen1.generators [x] params.pc.gen1.h rx =
      commitVec params.pc.gen1.generators [x'] params.pc.gen1.h rx')
    (r : InputRand F) (hbl : r.bullet.length = m - m / 2) (n : Nat) :
    ∃ (r' : InputRand F) (out : DotProof F G × G × Spartan.EqProof F G), r'.bullet.length = m - m / 2 ∧
      Yields (inputProve ch params w blinds qa q x rx r) n out (n + 3 * (m - m / 2) + 9) ∧
      Yields (inputProve ch params w' blinds' qa q x' rx' r') n out (n + 3 * (m - m / 2) + 9) := by
  obtain ⟨ev, hev⟩ := hs.blind params.pc.gen1.generators
    (commitVec params.pc.gen1.generators [mle w (qa ++ q.tail)] params.pc.gen1.h r.eval) [mle w' (qa ++ q.tail)]
  obtain ⟨d', rB', rD', bl', proof, hl', Y, Y'⟩ := evalProve_same ho hne params.pc hh hs h1 m w w' blinds blinds' (qa ++ q.tail) hw
    hw' hb hb' hr hg hn hc r.eval ev hev.symm r.d r.rBeta r.rDelta r.bullet hbl n
  have hb2 : rx - (1 - q.headD 0) * r.eval = rx' - (1 - q.headD 0) * ev := by
    apply hs.inj
    subst hx hx'
    simp only [commitVec_one] at he hev
    linear_combination (norm := module) he + (1 - q.headD 0) • hev
  have Z := eq_yields ho params.pc.gen1 x rx x ((1 - q.headD 0) * r.eval) r.eq (n + 3 * (m - m / 2) + 5)
  have Z' := eq_yields ho params.pc.gen1 x' rx' x' ((1 - q.headD 0) * ev) r.eq (n + 3 * (m - m / 2) + 5)
  rw [← hb2] at Z'
  exact ⟨⟨ev, d', rB', rD', bl', r.eq⟩, _, hl', input_yields params w blinds qa q x rx r hq (by rw [hr, hw]) n _ _ _ _ _ Y Z,
    input_yields params w' blinds' qa q x' rx' ⟨ev, d', rB', rD', bl', r.eq⟩ hq (by rw [hr, hw']) n _ _ _ _ _ Y' Z'⟩

theorem input_inj {ch : Oracle F G} (ho : Oblivious ch) (hne : ∀ t, ch (t ++ [.chal "x"]) ≠ 0)
    (params : Params G) (hh : params.pc.genN.h = params.pc.gen1.h) (hs : Spans F params.pc.gen1.h)
    (h1 : params.pc.gen1.generators ≠ []) (m : Nat) (w blinds qa q : List F) (hw : w.length = 2 ^ m)
    (hb : blinds.length = 2 ^ (m / 2)) (hq : 1 ≤ q.length) (hr : (qa ++ q.tail).length = m)
    (hg : 2 ^ (m - m / 2) ≤ params.pc.genN.generators.length) (hn : 2 ^ (m - m / 2) ≤ params.pc.n)
    (x rx : F) (r r' : InputRand F) (hbl : r.bullet.length = m - m / 2) (hbl' : r'.bullet.length = m - m / 2) (n n1 n2 : Nat)
    (out : DotProof F G × G × Spartan.EqProof F G)
    (h : Yields (inputProve ch params w blinds qa q x rx r) n out n1)
    (h' : Yields (inputProve ch params w blinds qa q x rx r') n out n2) : r = r' := by
  obtain ⟨-, -, -, -, p1, -, Y, -⟩ := evalProve_same ho hne params.pc hh hs h1 m w w blinds blinds (qa ++ q.tail) hw hw hb hb hr hg hn
    rfl r.eval r.eval rfl r.d r.rBeta r.rDelta r.bullet hbl n
  obtain ⟨-, -, -, -, p2, -, Y', -⟩ := evalProve_same ho hne params.pc hh hs h1 m w w blinds blinds (qa ++ q.tail) hw hw hb hb hr hg hn
    rfl r'.eval r'.eval rfl r'.d r'.rBeta r'.rDelta r'.bullet hbl' n
  have Z := eq_yields ho params.pc.gen1 x rx x ((1 - q.headD 0) * r.eval) r.eq (n + 3 * (m - m / 2) + 5)
  have Z' := eq_yields ho params.pc.gen1 x rx x ((1 - q.headD 0) * r'.eval) r'.eq (n + 3 * (m - m / 2) + 5)
  have A := input_yields params w blinds qa q x rx r hq (by rw [hr, hw]) n _ _ _ _ _ Y Z
  have A' := input_yields params w blinds qa q x rx r' hq (by rw [hr, hw]) n _ _ _ _ _ Y' Z'
  have e := (A.unique h).1.trans (A'.unique h').1.symm
  simp only [Prod.mk.injEq, Spartan.EqProof.mk.injEq] at e
  obtain ⟨rfl, e2, -, e4⟩ := e
  have g1 := hs.blind_inj e2
  rw [← g1] at e4 Y'
  have g2 := add_left_cancel e4
  obtain ⟨g3, g4, g5, g6⟩ := evalProve_inj ho hne params.pc hh hs h1 m w blinds (qa ++ q.tail) hw hb hr hg hn r.eval _ _ _ _ _ _ _ _ hbl
    hbl' n _ _ p1 _ _ Y Y'
  cases r; cases r'
  simp only at g1 g2 g3 g4 g5 g6
  rw [g1, g2, g3, g4, g5, g6]

end Zkp.Hx
