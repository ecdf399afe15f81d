/- The messages of the Bulletproofs prover as functions of its random values, for fixed challenges. -/
import Verif.Proof.BulletproofsComplete
import Verif.Proof.CommitHiding

set_option linter.unusedSectionVars false

namespace Zkp.Bp

open Zkp.Cp (Oblivious Spans chalAt)

variable {F : Type} [Field F] [DecidableEq F] {G : Type} [AddCommGroup G] [Module F G] [DecidableEq G]

theorem ippLoop_oblivious {ch : Oracle F G} (ho : Oblivious ch) (u : G) (k : Nat) (tr tr' : Transcript F G)
    (ht : tr.length = tr'.length) (g h : List G) (a b : List F) :
    ippLoop ch u k tr g h a b = ippLoop ch u k tr' g h a b := by
  induction k generalizing tr tr' g h a b with
  | zero => rfl
  | succ k ih =>
    simp only [ippLoop]
    set m : Transcript F G := [.pt "L" _, .pt "R" _, .chal "x"]
    have hl : (tr ++ m).length = (tr' ++ m).length := by simp [ht]
    rw [ho (tr ++ m) (tr' ++ m) hl, ih (tr ++ m) (tr' ++ m) hl]

theorem ippProve_oblivious {ch : Oracle F G} (ho : Oblivious ch) (tr tr' : Transcript F G)
    (ht : tr.length = tr'.length) (g h : List G) (u P : G) (a b : List F) :
    ippProve ch tr g h u P a b = ippProve ch tr' g h u P a b := by
  unfold ippProve
  simp only
  rw [ippLoop_oblivious ho u _ (tr ++ ippStart a.length u P g h) (tr' ++ ippStart a.length u P g h)
    (by simp [ht])]

theorem verifyProof_elim (ch : Oracle F G) (gens : Generators G)
    (p : Proof F G) (circuit : R1csCircuit F) (pi : List F) (ho : Oblivious ch)
    (h : verifyProof ch gens p circuit pi = some true) :
    ∃ v, vectors gens circuit (1 :: pi) (chalAt ch 18) (chalAt ch 19) = some v ∧
      checkT gens v p (chalAt ch 28) ∧ checkP gens v p (chalAt ch 28) := by
  unfold verifyProof at h
  simp only at h
  rw [ho.eq, ho.eq, ho.eq, ho.eq] at h
  simp only [startTr, tTr, xTr, List.length_append, List.length_cons, List.length_nil] at h
  split at h
  · cases h
  rename_i v hv
  split at h
  · cases h
  split at h
  · cases h
  · cases h
  split at h
  · rename_i hT
    exact ⟨v, hv, hT, of_decide_eq_true (Option.some.inj h)⟩
  · cases h

/-- The random values that only shift points. -/
def bare (sL sR : List F) : Rand F := ⟨sL, sR, 0, 0, 0, 0, 0, 0, 0, 0, 0, 0, 0, 0⟩

/-- The prover's run: `a`, `b` and the points `KI`, `KO`, `KW` come from the witness. -/
theorem prove_run (ch : Oracle F G) (ho : Oblivious ch) (hch : ∀ t, ch t ≠ 0) (gens : Generators G)
    (circuit : R1csCircuit F) (input : Assignment F)
    (hgN : gens.N = nextPow2 (max input.aL.length input.w.length))
    (hgl : gens.g_vec_N.length = gens.N) (hhl : gens.h_vec_N.length = gens.N)
    (hR : input.aL.length = input.aR.length) (hO : input.aL.length = input.aO.length)
    (hn : input.aL.length ≠ 0) :
    ∃ (a b : Nat → F) (KI KO KW : G) (KS : List F → List F → G) (t : List F → List F → Poly10 F),
      (∀ i, max input.aL.length input.w.length ≤ i →
        a i = 0 ∧ b i = -(chalAt ch 28 * chalAt ch 18 ^ i)) ∧
      ∀ rnd : Rand F, ∃ ipp,
        let x := chalAt ch 28
        let l_x := (List.range gens.N).map fun i => a i + x ^ 5 * rnd.sL.getD i 0
        let r_x := (List.range gens.N).map fun i => b i + x ^ 5 * chalAt ch 18 ^ i * rnd.sR.getD i 0
        let t_x := innerProduct l_x r_x
        let ux := chalAt ch 34 • gens.u
        let P := msm gens.g_vec_N l_x + msm gens.h_vec_N r_x + t_x • ux
        ippProve ch (List.replicate 34 (.chal "")) gens.g_vec_N gens.h_vec_N ux P l_x r_x = some ipp ∧
        prove ch gens circuit input rnd = some {
          A_I := rnd.aI • gens.h + KI
          A_O := rnd.aO • gens.h + KO
          A_W := rnd.gamma • gens.h + KW
          S := rnd.s • gens.h + KS rnd.sL rnd.sR
          T_2 := (t rnd.sL rnd.sR).t2 • gens.g + rnd.tau_2 • gens.h
          T_3 := (t rnd.sL rnd.sR).t3 • gens.g + rnd.tau_3 • gens.h
          T_5 := (t rnd.sL rnd.sR).t5 • gens.g + rnd.tau_5 • gens.h
          T_6 := (t rnd.sL rnd.sR).t6 • gens.g + rnd.tau_6 • gens.h
          T_7 := (t rnd.sL rnd.sR).t7 • gens.g + rnd.tau_7 • gens.h
          T_8 := (t rnd.sL rnd.sR).t8 • gens.g + rnd.tau_8 • gens.h
          T_9 := (t rnd.sL rnd.sR).t9 • gens.g + rnd.tau_9 • gens.h
          T_10 := (t rnd.sL rnd.sR).t10 • gens.g + rnd.tau_10 • gens.h
          mu := rnd.aI * x ^ 2 + rnd.aO * x ^ 3 + rnd.gamma * x ^ 4 + rnd.s * x ^ 5
          tau_x := rnd.tau_2 * x ^ 2 + rnd.tau_3 * x ^ 3 + rnd.tau_5 * x ^ 5 + rnd.tau_6 * x ^ 6 +
            rnd.tau_7 * x ^ 7 + rnd.tau_8 * x ^ 8 + rnd.tau_9 * x ^ 9 + rnd.tau_10 * x ^ 10
          l_x := l_x
          r_x := r_x
          t_x := t_x
          IPP := ipp
          IPP_P := P } := by
  set y := chalAt ch 18 with hy
  set z := chalAt ch 19 with hz
  set x := chalAt ch 28 with hx
  have hy0 : y ≠ 0 := hch _
  have hpoly : ∀ rnd : Rand F, ∃ l r, proverPolys circuit input rnd gens.N y z = some (l, r) := by
    intro rnd
    unfold proverPolys
    simp only
    rw [if_neg (by
        rw [List.any_eq_true]
        rintro ⟨w, hw, h0⟩
        obtain ⟨i, -, rfl⟩ := List.mem_map.mp hw
        exact pow_ne_zero i hy0 (by simpa using h0)), if_neg hn]
    exact ⟨_, _, rfl⟩
  obtain ⟨l0, r0, hp0⟩ := hpoly (bare [] [])
  obtain ⟨L, R, O, V, eL, eR, eO, eV, -⟩ := proverPolys_spec hp0
  have hmN : max input.aL.length input.w.length ≤ gens.N := by rw [hgN]; exact le_nextPow2 _
  refine ⟨fun i => x * x * (input.aL.getD i 0 + (y ^ i)⁻¹ * R i) + x * x * x * input.aO.getD i 0 +
      x * x * (x * x) * input.w.getD i 0,
    fun i => -(V i) + x * (-(y ^ i) + O i) + x * x * (y ^ i * input.aR.getD i 0 + L i),
    msm (gens.g_vec_N.take input.aL.length) input.aL + msm (gens.h_vec_N.take input.aL.length) input.aR,
    msm (gens.g_vec_N.take input.aL.length) input.aO,
    msm (gens.g_vec_N.take input.w.length) input.w,
    fun sL sR => msm (gens.g_vec_N.take (max input.aL.length input.w.length)) sL +
      msm (gens.h_vec_N.take (max input.aL.length input.w.length)) sR,
    fun sL sR => match proverPolys circuit input (bare sL sR) gens.N y z with
      | some (l, r) => specialInnerProduct l r
      | none => ⟨0, 0, 0, 0, 0, 0, 0, 0, 0⟩, ?_, ?_⟩
  · intro i hi
    have h1 : ¬ i < input.aL.length := by omega
    have h2 : ¬ i < input.w.length := by omega
    have h3 : ∀ l : List F, l.length ≤ i → l.getD i 0 = 0 := fun l hl => List.getD_eq_default _ _ hl
    simp only [eL, eR, eO, eV, if_neg h1, if_neg h2]
    rw [h3 _ (by omega), h3 _ (by omega), h3 _ (by omega), h3 _ (by omega)]
    simp
  · intro rnd
    obtain ⟨l, r, hp⟩ := hpoly rnd
    have hb : proverPolys circuit input (bare rnd.sL rnd.sR) gens.N y z = some (l, r) := hp
    obtain ⟨L', R', O', V', eL', eR', eO', eV', l0, l1, l2, l3, l4, l5, r0, r1, r2, r3, r4, r5⟩ := proverPolys_spec hp
    obtain rfl : L' = L := funext fun i => by rw [eL, eL']
    obtain rfl : R' = R := funext fun i => by rw [eR, eR']
    obtain rfl : O' = O := funext fun i => by rw [eO, eO']
    obtain rfl : V' = V := funext fun i => by rw [eV, eV']
    have hlx : l.eval x = (List.range gens.N).map fun i => x * x * (input.aL.getD i 0 + (y ^ i)⁻¹ * R' i) +
        x * x * x * input.aO.getD i 0 + x * x * (x * x) * input.w.getD i 0 + x ^ 5 * rnd.sL.getD i 0 := by
      unfold VecPoly5.eval
      rw [l0, l1, l2, l3, l4, l5, List.length_map, List.length_range]
      apply List.map_congr_left
      intro i hi
      have hi := List.mem_range.mp hi
      simp only [range_map_getD, if_pos hi]
      ring
    have hrx : r.eval x = (List.range gens.N).map fun i => -(V' i) + x * (-(y ^ i) + O' i) +
        x * x * (y ^ i * input.aR.getD i 0 + L' i) + x ^ 5 * y ^ i * rnd.sR.getD i 0 := by
      unfold VecPoly5.eval
      rw [r0, r1, r2, r3, r4, r5, List.length_map, List.length_range]
      apply List.map_congr_left
      intro i hi
      have hi := List.mem_range.mp hi
      simp only [range_map_getD, if_pos hi]
      ring
    simp only [← hlx, ← hrx, hb]
    have hipp : ∃ ipp, ippProve ch (List.replicate 34 (.chal "")) gens.g_vec_N gens.h_vec_N (chalAt ch 34 • gens.u)
        (msm gens.g_vec_N (l.eval x) + msm gens.h_vec_N (r.eval x) +
          innerProduct (l.eval x) (r.eval x) • chalAt ch 34 • gens.u) (l.eval x) (r.eval x) = some ipp := by
      have hll : (l.eval x).length = nextPow2 (max input.aL.length input.w.length) := by rw [hlx]; simp [hgN]
      have hrl : (r.eval x).length = nextPow2 (max input.aL.length input.w.length) := by rw [hrx]; simp [hgN]
      unfold ippProve
      simp only
      have hk : Nat.log2 (l.eval x).length = Nat.clog 2 (max input.aL.length input.w.length) := by
        rw [hll, nextPow2, Nat.log2_two_pow]
      rw [hk, if_neg (by rw [hll, hrl]; simp [nextPow2])]
      exact ippLoop_some ch hch _ _ _ _ _ _ _ hll hrl (by rw [hgl, hgN]; rfl) (by rw [hhl, hgN]; rfl)
    obtain ⟨ipp, hipp⟩ := hipp
    refine ⟨ipp, hipp, ?_⟩
    unfold prove
    simp only
    rw [if_neg (by push Not; exact ⟨hR, hO⟩), if_neg (by omega)]
    rw [ho.eq (_ ++ [Msg.chal "y"]), ho.eq (_ ++ [Msg.chal "y"] ++ [Msg.chal "z"])]
    rw [show List.length (startTr _ _ _ _ _ _ _ ++ [Msg.chal "y"] : Transcript F G) = 18 from rfl,
      show List.length (startTr _ _ _ _ _ _ _ ++ [Msg.chal "y"] ++ [Msg.chal "z"] : Transcript F G) = 19 from rfl,
      ← hy, ← hz, ← hgN, hp]
    simp only
    rw [ho.eq (_ ++ [Msg.chal "x_1"]), ho.eq (_ ++ [Msg.chal "x"])]
    simp only [tTr, xTr, startTr, List.length_append, List.length_cons, List.length_nil, Nat.reduceAdd]
    rw [← hx, ippProve_oblivious ho _ (List.replicate 34 (.chal "")) (by simp), hipp]
    simp only [Option.map_some, Option.some.injEq, Proof.mk.injEq]
    refine ⟨by abel, trivial, trivial, by abel, ?_⟩
    simp only [true_and, and_true]
    constructor <;> ring

end Zkp.Bp
