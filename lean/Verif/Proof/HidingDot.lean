/- The dot-product proof and the committed evaluation, for challenges fixed beforehand. -/
import Verif.Proof.HidingRun
import Verif.Proof.SpartanProver

namespace Zkp.Cp

open Zkp.Ml Zkp.Spartan Zkp.Sc

set_option linter.unusedSectionVars false
set_option linter.unusedSimpArgs false

variable {F : Type} [Field F] {G : Type} [AddCommGroup G] [Module F G] [DecidableEq F] [DecidableEq G]

theorem bulletLoop_yields {ch : Oracle F G} (ho : Oblivious ch) (hne : ∀ t, ch (t ++ [.chal "x"]) ≠ 0) (q h : G) (k : Nat) :
    ∀ (n : Nat) (g : List G) (a b : List F) (blind : F) (blinds : List (F × F)), a.length = 2 ^ k → b.length = 2 ^ k →
      2 ^ k ≤ g.length → blinds.length = k → ∃ out : Bullet F G, out.L.length = k ∧ out.R.length = k ∧
        Yields (bulletLoop ch q h k g a b blind blinds) n out (n + 3 * k) := by
  induction k with
  | zero =>
    intro n g a b blind blinds ha hb hg hl
    match a, b, g, ha, hb, hg with
    | [a], [b], g :: gs, _, _, _ =>
      refine ⟨⟨[], [], a, b, g, blind⟩, rfl, rfl, ?_⟩
      unfold bulletLoop
      exact (Yields.ensure (by simp)).bind ((Yields.orPanic (a := a) rfl).bind ((Yields.orPanic (a := b) rfl).bind
        ((Yields.orPanic (a := g) rfl).bind Yields.pure)))
  | succ k ih =>
    intro n g a b blind blinds ha hb hg hl
    have hp : 2 ^ (k + 1) = 2 ^ k + 2 ^ k := by rw [pow_succ]; omega
    match blinds, hl with
    | (bl, br) :: blinds, hl =>
      set x := chalAt ch (n + 3) with hx
      have hx0 : x ≠ 0 := by
        have := hne (List.replicate (n + 2) (.chal ""))
        rw [ho.eq] at this
        simpa using this
      obtain ⟨out, h1, h2, h3⟩ := ih (n + 3)
        (List.zipWith (fun l r => x⁻¹ • l + x • r) (g.take (2 ^ k)) (g.drop (2 ^ k)))
        (List.zipWith (fun l r => l * x + r * x⁻¹) (a.take (2 ^ k)) (a.drop (2 ^ k)))
        (List.zipWith (fun l r => l * x⁻¹ + r * x) (b.take (2 ^ k)) (b.drop (2 ^ k)))
        (blind + x * x * bl + x⁻¹ * x⁻¹ * br) blinds
        (by simp; omega) (by simp; omega) (by simp; omega) (by simpa using hl)
      obtain ⟨L, R, h⟩ : ∃ L R, Yields (bulletLoop ch q h (k + 1) g a b blind ((bl, br) :: blinds)) n
          ⟨L :: out.L, R :: out.R, out.a, out.b, out.g, out.blind⟩ (n + 3 + 3 * k) := by
        unfold bulletLoop
        exact ⟨_, _, (Yields.ensure (decide_eq_true (by omega))).bind ((Yields.orPanic (a := (bl, br)) rfl).bind (Yields.say.bind
          (Yields.say.bind ((Yields.challenge ho).bind ((Yields.ensure (decide_eq_true hx0)).bind (h3.bind Yields.pure))))))⟩
      exact ⟨⟨L :: out.L, R :: out.R, out.a, out.b, out.g, out.blind⟩, by simp [h1], by simp [h2], by rw [show n + 3 * (k + 1) = n + 3 + 3 * k by ring]; exact h⟩

theorem logDot_yields {ch : Oracle F G} (ho : Oblivious ch) (hne : ∀ t, ch (t ++ [.chal "x"]) ≠ 0) (label : String)
    (params : PcParams G) (h1 : params.gen1.generators ≠ []) (x a : List F) (k : Nat) (hx : x.length = 2 ^ k)
    (ha : a.length = 2 ^ k) (hg : 2 ^ k ≤ params.genN.generators.length) (blindX y blindY d rBeta rDelta : F)
    (blinds : List (F × F)) (hbl : blinds.length = k) (n : Nat) :
    ∃ proof : DotProof F G, proof.L.length = k ∧ proof.R.length = k ∧
      Yields (logDotProve ch label params x blindX a y blindY d rBeta rDelta blinds) n
        (proof, commitVec params.genN.generators x params.genN.h blindX,
          commitVec params.gen1.generators [y] params.gen1.h blindY) (n + 3 * k + 5) := by
  obtain ⟨q, gs, hgs⟩ := List.exists_cons_of_ne_nil h1
  obtain ⟨out, o1, o2, o3⟩ := bulletLoop_yields ho hne q params.gen1.h k (n + 2) params.genN.generators x a (blindX + blindY)
    blinds hx ha hg hbl
  have hb : Yields (bulletProve ch params.genN.generators q params.gen1.h x a (blindX + blindY) blinds) (n + 2)
      out (n + 2 + 3 * k) := by
    refine (Yields.ensure ?_).bind ((Yields.ensure (by rw [hx, ha]; simp)).bind ?_)
    · simp [isPow2, hx, Nat.log2_two_pow]
    · rw [hx, Nat.log2_two_pow]; exact o3
  obtain ⟨p1, p2, p3, p4, h⟩ : ∃ p1 p2 p3 p4, Yields (logDotProve ch label params x blindX a y blindY d rBeta rDelta blinds) n
      (⟨out.L, out.R, p1, p2, p3, p4⟩, commitVec params.genN.generators x params.genN.h blindX,
        commitVec params.gen1.generators [y] params.gen1.h blindY) (n + 2 + 3 * k + 3) := by
    unfold logDotProve
    exact ⟨_, _, _, _, Yields.say.bind (Yields.say.bind ((Yields.orPanic (a := q) (by rw [hgs]; rfl)).bind (hb.bind
      (Yields.say.bind (Yields.say.bind ((Yields.challenge ho).bind Yields.pure))))))⟩
  exact ⟨_, o1, o2, by rw [show n + 3 * k + 5 = n + 2 + 3 * k + 3 by ring]; exact h⟩

theorem logDot_same {ch : Oracle F G} (ho : Oblivious ch) (hne : ∀ t, ch (t ++ [.chal "x"]) ≠ 0) (label : String)
    (params : PcParams G) (hh : params.genN.h = params.gen1.h) (hs : Spans F params.gen1.h)
    (h1 : params.gen1.generators ≠ []) (x x' a : List F) (k : Nat) (hx : x.length = 2 ^ k) (hx' : x'.length = 2 ^ k)
    (ha : a.length = 2 ^ k) (hg : 2 ^ k ≤ params.genN.generators.length) (blindX blindX' y blindY y' blindY' : F)
    (hy : dot x a = y) (hy' : dot x' a = y')
    (hcy : commitVec params.gen1.generators [y] params.gen1.h blindY = commitVec params.gen1.generators [y'] params.gen1.h blindY')
    (hc : commitVec params.genN.generators x params.genN.h blindX = commitVec params.genN.generators x' params.genN.h blindX')
    (d rBeta rDelta : F) (blinds : List (F × F)) (hbl : blinds.length = k) (n : Nat) :
    ∃ (d' rBeta' rDelta' : F) (blinds' : List (F × F)) (proof : DotProof F G) (cx cy : G), blinds'.length = k ∧
      Yields (logDotProve ch label params x blindX a y blindY d rBeta rDelta blinds) n (proof, cx, cy) (n + 3 * k + 5) ∧
      Yields (logDotProve ch label params x' blindX' a y' blindY' d' rBeta' rDelta' blinds') n (proof, cx, cy)
        (n + 3 * k + 5) := by
  obtain ⟨proof, hL, hR, hY⟩ := logDot_yields ho hne label params h1 x a k hx ha hg blindX y blindY d rBeta rDelta blinds hbl n
  set tr : Transcript F G := List.replicate n (.chal "") with htr
  have htl : tr.length = n := by simp [htr]
  obtain ⟨tr1, hrun, -⟩ := hY tr htl
  rw [← hy] at hrun
  obtain ⟨-, -, hv⟩ := C57_log_dot ch label params hh _ _ _ _ _ _ _ _ _ _ _ _ _ hrun
  obtain ⟨delta', hacc, ⟨bs, d', rB, rD⟩, ⟨hbs, tr2, hrun'⟩, -⟩ := C97_log_dot ch ho hne label params hh hs h1 x' a k hx' ha hg
    blindX' blindY' tr proof.L proof.R hL hR proof.beta proof.z1 proof.z2
  have hd : proof.delta = delta' := by
    refine (hacc proof.delta).1 ⟨tr1, ?_⟩
    rw [← hc, hy', ← hcy, ← hy]
    exact hv
  simp only at hbs hrun'
  obtain ⟨proof', -, -, hY'⟩ := logDot_yields ho hne label params h1 x' a k hx' ha hg blindX' y' blindY' d' rB rD bs hbs n
  obtain ⟨tr3, hrun3, -⟩ := hY' tr htl
  rw [hy'] at hrun'
  rw [hrun'] at hrun3
  have hpp : proof = proof' := by
    have := (Prod.mk.inj (Prod.mk.inj (Except.ok.inj hrun3)).1).1
    rw [← this, ← hd]
  refine ⟨d', rB, rD, bs, proof, _, _, hbs, hY, ?_⟩
  rw [hc, hpp, hcy]
  exact hY'

theorem logDot_inj {ch : Oracle F G} (ho : Oblivious ch) (hne : ∀ t, ch (t ++ [.chal "x"]) ≠ 0) (label : String)
    (params : PcParams G) (hh : params.genN.h = params.gen1.h) (hs : Spans F params.gen1.h)
    (h1 : params.gen1.generators ≠ []) (x a : List F) (k : Nat) (hx : x.length = 2 ^ k)
    (ha : a.length = 2 ^ k) (hg : 2 ^ k ≤ params.genN.generators.length) (blindX blindY : F)
    (d rBeta rDelta : F) (blinds : List (F × F)) (hbl : blinds.length = k)
    (d' rBeta' rDelta' : F) (blinds' : List (F × F)) (hbl' : blinds'.length = k) (n n1 n2 : Nat) (proof : DotProof F G) (u v : G × G)
    (h : Yields (logDotProve ch label params x blindX a (dot x a) blindY d rBeta rDelta blinds) n (proof, u) n1)
    (h' : Yields (logDotProve ch label params x blindX a (dot x a) blindY d' rBeta' rDelta' blinds') n (proof, v) n2) :
    d = d' ∧ rBeta = rBeta' ∧ rDelta = rDelta' ∧ blinds = blinds' := by
  obtain ⟨p1, hL, hR, hY⟩ := logDot_yields ho hne label params h1 x a k hx ha hg blindX (dot x a) blindY d rBeta rDelta blinds hbl n
  obtain ⟨p2, -, -, hY'⟩ := logDot_yields ho hne label params h1 x a k hx ha hg blindX (dot x a) blindY d' rBeta' rDelta' blinds' hbl' n
  obtain rfl := (Prod.mk.inj (hY.unique h).1).1
  obtain rfl := (Prod.mk.inj (hY'.unique h').1).1
  set tr : Transcript F G := List.replicate n (.chal "") with htr
  have htl : tr.length = n := by simp [htr]
  obtain ⟨tr1, hrun, -⟩ := hY tr htl
  obtain ⟨tr2, hrun', -⟩ := hY' tr htl
  obtain ⟨-, -, hv⟩ := C57_log_dot ch label params hh _ _ _ _ _ _ _ _ _ _ _ _ _ hrun
  obtain ⟨delta', hacc, p, -, hu⟩ := C97_log_dot ch ho hne label params hh hs h1 x a k hx ha hg
    blindX blindY tr p2.L p2.R hL hR p2.beta p2.z1 p2.z2
  have hd : p2.delta = delta' := (hacc p2.delta).1 ⟨_, hv⟩
  have e := (hu (blinds, d, rBeta, rDelta) ⟨hbl, tr1, by rw [← hd]; exact hrun⟩).trans
    (hu (blinds', d', rBeta', rDelta') ⟨hbl', tr2, by rw [← hd]; exact hrun'⟩).symm
  simp only [Prod.mk.injEq] at e
  exact ⟨e.2.1, e.2.2.1, e.2.2.2, e.1⟩

/-! ### Committed tables -/

/-- The commitments to the rows of a table. -/
def rowComms (g : List G) (h : G) (m : Nat) (values blinds : List F) : List G :=
  (List.range (2 ^ (m / 2))).map fun i =>
    commitVec g ((values.drop (i * 2 ^ (m - m / 2))).take (2 ^ (m - m / 2))) h (blinds.getD i 0)

theorem pack_yields (g : List G) (h : G) (m : Nat) (values blinds : List F) (hv : values.length = 2 ^ m)
    (hb : blinds.length = 2 ^ (m / 2)) (n : Nat) :
    Yields (packCommit g h values blinds) n (rowComms g h m values blinds) n := by
  have hsz : Nat.clog 2 values.length = m := by rw [hv, Nat.clog_pow 2 m (by decide)]
  unfold packCommit rowComms
  rw [hsz]
  exact (Yields.ensure (by rw [hv, ← pow_add]; simp; omega)).bind ((Yields.ensure (by simpa using hb)).bind Yields.pure)

theorem pack_same (g : List G) (h : G) (hs : Spans F h) (m : Nat) (values values' blinds : List F) :
    ∃ blinds' : List F, blinds'.length = 2 ^ (m / 2) ∧ rowComms g h m values' blinds' = rowComms g h m values blinds := by
  choose f hf using fun i : Nat => hs.blind g (commitVec g ((values.drop (i * 2 ^ (m - m / 2))).take (2 ^ (m - m / 2))) h
    (blinds.getD i 0)) ((values'.drop (i * 2 ^ (m - m / 2))).take (2 ^ (m - m / 2)))
  refine ⟨(List.range (2 ^ (m / 2))).map f, by simp, ?_⟩
  unfold rowComms
  refine List.map_congr_left fun i hi => ?_
  rw [getD_map_range _ _ (List.mem_range.1 hi), hf]

theorem pack_inj (g : List G) (h : G) (hs : Spans F h) (m : Nat) (values blinds blinds' : List F)
    (hb : blinds.length = 2 ^ (m / 2)) (hb' : blinds'.length = 2 ^ (m / 2))
    (e : rowComms g h m values blinds = rowComms g h m values blinds') : blinds = blinds' := by
  refine List.ext_getElem (hb.trans hb'.symm) fun i h1 h2 => ?_
  unfold rowComms at e
  have := hs.blind_inj (List.map_inj_left.1 e i (List.mem_range.2 (hb ▸ h1)))
  rwa [List.getD_eq_getElem _ _ h1, List.getD_eq_getElem _ _ h2] at this

/-- The combination of the rows. -/
def rowComb (poly r1 r2 : List F) : List F :=
  (List.range (2 ^ r2.length)).map fun j => ((List.range (2 ^ r1.length)).map fun i =>
      (evalEq r1).getD i 0 * poly.getD (i * 2 ^ r2.length + j) 0).sum

/-- The combination of the blinding values. -/
def blindComb (blinds r1 : List F) : F := ((List.range (2 ^ r1.length)).map fun i => (evalEq r1).getD i 0 * blinds.getD i 0).sum

theorem combineRows_yields (m : Nat) (poly blinds ry : List F) (hp : poly.length = 2 ^ m)
    (hb : blinds.length = 2 ^ (m / 2)) (hr : ry.length = m) (n : Nat) :
    Yields (combineRows (G := G) poly blinds ry) n (rowComb poly (ry.take (m / 2)) (ry.drop (m / 2)),
      blindComb blinds (ry.take (m / 2)), evalEq (ry.drop (m / 2))) n := by
  have hsz : Nat.clog 2 poly.length = m := by rw [hp, Nat.clog_pow 2 m (by decide)]
  have hne : ¬ blinds.length = 0 := by rw [hb]; positivity
  have h1 : (ry.take (m / 2)).length = m / 2 := by simp [hr]; omega
  have h2 : (ry.drop (m / 2)).length = m - m / 2 := by simp [hr]
  unfold combineRows rowComb blindComb
  simp only [hsz, h1, h2]
  simp only [if_neg hne]
  refine (Yields.ensure (by simp [hr])).bind ((Yields.ensure (by simp [hb])).bind ((Yields.ensure ?_).bind Yields.pure))
  simp only [decide_eq_true_eq]
  rw [hp, ← pow_add]
  apply Nat.pow_le_pow_right (by decide)
  omega

/-- The proof of a committed evaluation, for two tables in the same commitments that have the same value. -/
theorem evaluation_same {ch : Oracle F G} (ho : Oblivious ch) (hne : ∀ t, ch (t ++ [.chal "x"]) ≠ 0)
    (params : PcParams G) (hh : params.genN.h = params.gen1.h) (hs : Spans F params.gen1.h)
    (h1 : params.gen1.generators ≠ []) (m : Nat) (w w' blinds blinds' ry : List F) (hw : w.length = 2 ^ m)
    (hw' : w'.length = 2 ^ m) (hb : blinds.length = 2 ^ (m / 2)) (hb' : blinds'.length = 2 ^ (m / 2)) (hr : ry.length = m)
    (hg : 2 ^ (m - m / 2) ≤ params.genN.generators.length)
    (hc : rowComms params.genN.generators params.genN.h m w' blinds' = rowComms params.genN.generators params.genN.h m w blinds)
    (he : mle w' ry = mle w ry) (ryBlind d rDelta rBeta : F) (bl : List (F × F)) (hbl : bl.length = m - m / 2) (n : Nat) :
    ∃ (d' rDelta' rBeta' : F) (bl' : List (F × F)) (proof : DotProof F G), bl'.length = m - m / 2 ∧
      Yields (innerProductProve ch params w blinds ry ryBlind (mle w ry) d rDelta rBeta bl) n
        (proof, commitVec params.gen1.generators [mle w ry] params.gen1.h ryBlind) (n + 3 * (m - m / 2) + 6) ∧
      Yields (innerProductProve ch params w' blinds' ry ryBlind (mle w' ry) d' rDelta' rBeta' bl') n
        (proof, commitVec params.gen1.generators [mle w ry] params.gen1.h ryBlind) (n + 3 * (m - m / 2) + 6) := by
  set r1 := ry.take (m / 2) with hr1
  set r2 := ry.drop (m / 2) with hr2
  have l1 : r1.length = m / 2 := by rw [hr1]; simp [hr]; omega
  have l2 : r2.length = m - m / 2 := by rw [hr2]; simp [hr]
  have hry : r1 ++ r2 = ry := List.take_append_drop _ _
  have hx : ∀ w : List F, (rowComb w r1 r2).length = 2 ^ (m - m / 2) := fun w => by unfold rowComb; simp [l2]
  have hy : ∀ w : List F, dot (rowComb w r1 r2) (evalEq r2) = mle w ry := fun w => by
    rw [← hry]; exact dot_rows w r1 r2
  have hcx : ∀ w blinds : List F, commitVec params.genN.generators (rowComb w r1 r2) params.genN.h (blindComb blinds r1) =
      commitVec (rowComms params.genN.generators params.genN.h m w blinds) (evalEq r1) params.genN.h (0 : F) := by
    intro w blinds
    unfold rowComms rowComb blindComb
    rw [← l1, show m - r1.length = r2.length by omega]
    exact (commit_rows params.genN.generators params.genN.h w blinds r1 (2 ^ r2.length)).symm
  obtain ⟨d', rB', rD', bl', proof, cx, cy, hl', Y, Y'⟩ := logDot_same ho hne "challenge_tau" params hh hs h1
    (rowComb w r1 r2) (rowComb w' r1 r2) (evalEq r2) (m - m / 2) (hx w) (hx w') (by rw [evalEq_length, l2]) hg
    (blindComb blinds r1) (blindComb blinds' r1) (mle w ry) ryBlind (mle w ry) ryBlind (hy w) ((hy w').trans he) rfl
    (by rw [hcx, hcx, hc]) d rBeta rDelta bl hbl (n + 1)
  obtain ⟨proof2, -, -, Y2⟩ := logDot_yields ho hne "challenge_tau" params h1 (rowComb w r1 r2) (evalEq r2) (m - m / 2) (hx w)
    (by rw [evalEq_length, l2]) hg (blindComb blinds r1) (mle w ry) ryBlind d rBeta rDelta bl hbl (n + 1)
  obtain ⟨rfl, rfl, rfl⟩ : proof2 = proof ∧ _ = cx ∧ _ = cy := by simpa only [Prod.mk.injEq] using (Y2.unique Y).1
  refine ⟨d', rD', rB', bl', proof2, hl', ?_, ?_⟩
  · unfold innerProductProve
    rw [show n + 3 * (m - m / 2) + 6 = n + 1 + 3 * (m - m / 2) + 5 by ring]
    exact Yields.say.bind ((combineRows_yields m w blinds ry hw hb hr (n + 1)).bind (Y.bind Yields.pure))
  · unfold innerProductProve
    rw [show n + 3 * (m - m / 2) + 6 = n + 1 + 3 * (m - m / 2) + 5 by ring, he]
    exact Yields.say.bind ((combineRows_yields m w' blinds' ry hw' hb' hr (n + 1)).bind (Y'.bind Yields.pure))

theorem evaluation_inj {ch : Oracle F G} (ho : Oblivious ch) (hne : ∀ t, ch (t ++ [.chal "x"]) ≠ 0)
    (params : PcParams G) (hh : params.genN.h = params.gen1.h) (hs : Spans F params.gen1.h)
    (h1 : params.gen1.generators ≠ []) (m : Nat) (w blinds ry : List F) (hw : w.length = 2 ^ m)
    (hb : blinds.length = 2 ^ (m / 2)) (hr : ry.length = m)
    (hg : 2 ^ (m - m / 2) ≤ params.genN.generators.length)
    (ryBlind d rDelta rBeta d' rDelta' rBeta' : F) (bl bl' : List (F × F)) (hbl : bl.length = m - m / 2)
    (hbl' : bl'.length = m - m / 2) (n n1 n2 : Nat) (proof : DotProof F G) (u v : G)
    (h : Yields (innerProductProve ch params w blinds ry ryBlind (mle w ry) d rDelta rBeta bl) n (proof, u) n1)
    (h' : Yields (innerProductProve ch params w blinds ry ryBlind (mle w ry) d' rDelta' rBeta' bl') n (proof, v) n2) :
    d = d' ∧ rDelta = rDelta' ∧ rBeta = rBeta' ∧ bl = bl' := by
  set r1 := ry.take (m / 2) with hr1
  set r2 := ry.drop (m / 2) with hr2
  have l1 : r1.length = m / 2 := by rw [hr1]; simp [hr]; omega
  have l2 : r2.length = m - m / 2 := by rw [hr2]; simp [hr]
  have hry : r1 ++ r2 = ry := List.take_append_drop _ _
  have hx : (rowComb w r1 r2).length = 2 ^ (m - m / 2) := by unfold rowComb; simp [l2]
  have hy : mle w ry = dot (rowComb w r1 r2) (evalEq r2) := by rw [← hry]; exact (dot_rows w r1 r2).symm
  rw [hy] at h h'
  obtain ⟨p1, -, -, Y1⟩ := logDot_yields ho hne "challenge_tau" params h1 (rowComb w r1 r2) (evalEq r2) (m - m / 2) hx
    (by rw [evalEq_length, l2]) hg (blindComb blinds r1) (dot (rowComb w r1 r2) (evalEq r2)) ryBlind d rBeta rDelta bl hbl (n + 1)
  obtain ⟨p2, -, -, Y2⟩ := logDot_yields ho hne "challenge_tau" params h1 (rowComb w r1 r2) (evalEq r2) (m - m / 2) hx
    (by rw [evalEq_length, l2]) hg (blindComb blinds r1) (dot (rowComb w r1 r2) (evalEq r2)) ryBlind d' rBeta' rDelta' bl' hbl' (n + 1)
  have k1 : Yields (innerProductProve ch params w blinds ry ryBlind (dot (rowComb w r1 r2) (evalEq r2)) d rDelta rBeta bl) n
      (p1, commitVec params.gen1.generators [dot (rowComb w r1 r2) (evalEq r2)] params.gen1.h ryBlind)
        (n + 1 + 3 * (m - m / 2) + 5) := by
    unfold innerProductProve
    exact Yields.say.bind ((combineRows_yields m w blinds ry hw hb hr (n + 1)).bind (Y1.bind Yields.pure))
  have k2 : Yields (innerProductProve ch params w blinds ry ryBlind (dot (rowComb w r1 r2) (evalEq r2)) d' rDelta' rBeta' bl') n
      (p2, commitVec params.gen1.generators [dot (rowComb w r1 r2) (evalEq r2)] params.gen1.h ryBlind)
        (n + 1 + 3 * (m - m / 2) + 5) := by
    unfold innerProductProve
    exact Yields.say.bind ((combineRows_yields m w blinds ry hw hb hr (n + 1)).bind (Y2.bind Yields.pure))
  obtain rfl := (Prod.mk.inj (k1.unique h).1).1
  obtain rfl := (Prod.mk.inj (k2.unique h').1).1
  obtain ⟨e1, e2, e3, e4⟩ := logDot_inj ho hne "challenge_tau" params hh hs h1 (rowComb w r1 r2) (evalEq r2) (m - m / 2) hx
    (by rw [evalEq_length, l2]) hg (blindComb blinds r1) ryBlind d rBeta rDelta bl hbl d' rBeta' rDelta' bl' hbl' (n + 1) _ _ p2 _ _
    Y1 Y2
  exact ⟨e1, e3, e2, e4⟩

end Zkp.Cp
