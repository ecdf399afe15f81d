/- Property C98: Bulletproofs reveal nothing about the witness. -/
import Verif.Proof.BulletproofsZk
import Verif.Props.Bulletproofs

set_option linter.unusedSectionVars false

namespace Zkp

open Bp
open Zkp.Cp (Oblivious Spans chalAt)

section
variable {F : Type} [Field F] [DecidableEq F] {G : Type} [AddCommGroup G] [Module F G] [DecidableEq G]

/-- What the simulator chooses at random. -/
structure Choice (F G : Type) where
  A_I : G
  A_O : G
  A_W : G
  T_3 : G
  T_5 : G
  T_6 : G
  T_7 : G
  T_8 : G
  T_9 : G
  T_10 : G
  mu : F
  tau_x : F
  l : List F
  r : List F

/-- The simulator, for challenges known beforehand: it knows the generators, the circuit and the public inputs,
takes a random choice, and solves the verifier's two equations for `S` and `T_2`. -/
def simulateBp (ch : Oracle F G) (gens : Generators G) (circuit : R1csCircuit F) (publicInputs : List F)
    (c : Choice F G) : Option (Bp.Proof F G) :=
  let y := chalAt ch 18
  let z := chalAt ch 19
  let x := chalAt ch 28
  let m := max gens.n gens.n_w
  let l_x := c.l ++ List.replicate (gens.N - m) 0
  let r_x := c.r ++ (List.range (gens.N - m)).map fun i => -(x * y ^ (m + i))
  let t_x := innerProduct l_x r_x
  let ux := chalAt ch 34 • gens.u
  let P := msm gens.g_vec_N l_x + msm gens.h_vec_N r_x + t_x • ux
  (vectors gens circuit (1 :: publicInputs) y z).bind fun v =>
    let h' := List.zipWith (fun h yi => yi • h) gens.h_vec_N v.y_n_inv
    (ippProve ch (List.replicate 34 (.chal "")) gens.g_vec_N gens.h_vec_N ux P l_x r_x).map fun ipp => {
      A_I := c.A_I
      A_O := c.A_O
      A_W := c.A_W
      S := (x ^ 5)⁻¹ • (c.mu • gens.h + msm gens.g_vec_N l_x + msm h' r_x - x ^ 2 • c.A_I - x ^ 3 • c.A_O -
        x ^ 4 • c.A_W - x • msm h' (v.y_n.map fun v => -1 * v) - x ^ 2 • msm h' v.zQ_WL -
        x ^ 2 • msm gens.g_vec_N v.ynInvZQWR - x • msm h' v.zQ_WO - msm h' v.zQ_neg_WV)
      T_2 := (x ^ 2)⁻¹ • (t_x • gens.g + c.tau_x • gens.h -
        (x ^ 4 * (v.delta_yz + innerProduct v.z_Q v.c)) • gens.g - x ^ 3 • c.T_3 - x ^ 5 • c.T_5 -
        x ^ 6 • c.T_6 - x ^ 7 • c.T_7 - x ^ 8 • c.T_8 - x ^ 9 • c.T_9 - x ^ 10 • c.T_10)
      T_3 := c.T_3
      T_5 := c.T_5
      T_6 := c.T_6
      T_7 := c.T_7
      T_8 := c.T_8
      T_9 := c.T_9
      T_10 := c.T_10
      mu := c.mu
      tau_x := c.tau_x
      l_x
      r_x
      t_x
      IPP := ipp
      IPP_P := P }

/-- The random values of a prover with vectors of length `m`. -/
abbrev Rands (F : Type) (m : Nat) := {rnd : Rand F // rnd.sL.length = m ∧ rnd.sR.length = m}

/-- The choices of a simulator with vectors of length `m`. -/
abbrev Choices (F G : Type) (m : Nat) := {c : Choice F G // c.l.length = m ∧ c.r.length = m}

theorem solve {x : F} (hx : x ≠ 0) {A B : G} (h : x • A = B) : A = x⁻¹ • B := by
  rw [← h, smul_smul, inv_mul_cancel₀ hx, one_smul]

theorem tail_split (m N : Nat) (hm : m ≤ N) (f : Nat → F) :
    (List.range N).map f = (List.range m).map f ++ (List.range (N - m)).map fun i => f (m + i) := by
  have : N = m + (N - m) := by omega
  conv_lhs => rw [this, List.range_add, List.map_append, List.map_map]
  rfl

theorem map_range_getD (s : List F) {m : Nat} (h : s.length = m) : ((List.range m).map fun i => s.getD i 0) = s := by
  subst h
  apply List.ext_getElem (by simp)
  intro i h1 h2
  simp [h2]

/-- A bijection between the prover's and the simulator's random values, for a given assignment. -/
theorem simulation (ch : Oracle F G) (ho : Oblivious ch) (hch : ∀ t, ch t ≠ 0) (gens : Generators G)
    (hs : Spans F gens.h) (circuit : R1csCircuit F) (input : Assignment F) (pi : List F)
    (hgn : gens.n = input.aL.length) (hgw : gens.n_w = input.w.length)
    (hgN : gens.N = nextPow2 (max input.aL.length input.w.length))
    (hgl : gens.g_vec_N.length = gens.N) (hhl : gens.h_vec_N.length = gens.N)
    (hR : input.aL.length = input.aR.length) (hO : input.aL.length = input.aO.length)
    (hn : input.aL.length ≠ 0)
    (hv : ∀ rnd : Rands F (max input.aL.length input.w.length), ∀ p, prove ch gens circuit input rnd.1 = some p →
      verifyProof ch gens p circuit pi = some true) :
    ∃ f : Rands F (max input.aL.length input.w.length) ≃ Choices F G (max input.aL.length input.w.length),
      ∀ rnd, prove ch gens circuit input rnd.1 = simulateBp ch gens circuit pi (f rnd).1 := by
  obtain ⟨a, b, KI, KO, KW, KS, t, htail, hrun⟩ := prove_run ch ho hch gens circuit input hgN hgl hhl hR hO hn
  set m := max input.aL.length input.w.length with hm
  set x := chalAt ch 28 with hxdef
  set y := chalAt ch 18 with hydef
  have hx : x ≠ 0 := hch _
  have hy : y ≠ 0 := hch _
  have hmN : m ≤ gens.N := by rw [hgN]; exact le_nextPow2 _
  let f : Rands F m → Choices F G m := fun rnd => ⟨{
    A_I := rnd.1.aI • gens.h + KI
    A_O := rnd.1.aO • gens.h + KO
    A_W := rnd.1.gamma • gens.h + KW
    T_3 := (t rnd.1.sL rnd.1.sR).t3 • gens.g + rnd.1.tau_3 • gens.h
    T_5 := (t rnd.1.sL rnd.1.sR).t5 • gens.g + rnd.1.tau_5 • gens.h
    T_6 := (t rnd.1.sL rnd.1.sR).t6 • gens.g + rnd.1.tau_6 • gens.h
    T_7 := (t rnd.1.sL rnd.1.sR).t7 • gens.g + rnd.1.tau_7 • gens.h
    T_8 := (t rnd.1.sL rnd.1.sR).t8 • gens.g + rnd.1.tau_8 • gens.h
    T_9 := (t rnd.1.sL rnd.1.sR).t9 • gens.g + rnd.1.tau_9 • gens.h
    T_10 := (t rnd.1.sL rnd.1.sR).t10 • gens.g + rnd.1.tau_10 • gens.h
    mu := rnd.1.aI * x ^ 2 + rnd.1.aO * x ^ 3 + rnd.1.gamma * x ^ 4 + rnd.1.s * x ^ 5
    tau_x := rnd.1.tau_2 * x ^ 2 + rnd.1.tau_3 * x ^ 3 + rnd.1.tau_5 * x ^ 5 + rnd.1.tau_6 * x ^ 6 +
      rnd.1.tau_7 * x ^ 7 + rnd.1.tau_8 * x ^ 8 + rnd.1.tau_9 * x ^ 9 + rnd.1.tau_10 * x ^ 10
    l := (List.range m).map fun i => a i + x ^ 5 * rnd.1.sL.getD i 0
    r := (List.range m).map fun i => b i + x ^ 5 * y ^ i * rnd.1.sR.getD i 0 }, by simp, by simp⟩
  have hbij : Function.Bijective f := by
    constructor
    · rintro ⟨r1, h1, h1'⟩ ⟨r2, h2, h2'⟩ he
      have he := congrArg Subtype.val he
      simp only [f, Choice.mk.injEq] at he
      obtain ⟨e1, e2, e3, e4, e5, e6, e7, e8, e9, e10, e11, e12, e13, e14⟩ := he
      have inj : ∀ {p q : F} {K : G}, p • gens.h + K = q • gens.h + K → p = q :=
        fun e => hs.inj (add_right_cancel e)
      have inj' : ∀ {p q : F} {K : G}, K + p • gens.h = K + q • gens.h → p = q :=
        fun e => hs.inj (add_left_cancel e)
      have q1 : r1.sL = r2.sL := by
        rw [← map_range_getD r1.sL h1, ← map_range_getD r2.sL h2]
        apply List.map_congr_left
        intro i hi
        have := List.map_inj_left.mp e13 i hi
        exact mul_left_cancel₀ (pow_ne_zero 5 hx) (add_left_cancel this)
      have q2 : r1.sR = r2.sR := by
        rw [← map_range_getD r1.sR h1', ← map_range_getD r2.sR h2']
        apply List.map_congr_left
        intro i hi
        have := List.map_inj_left.mp e14 i hi
        exact mul_left_cancel₀ (mul_ne_zero (pow_ne_zero 5 hx) (pow_ne_zero i hy)) (add_left_cancel this)
      rw [q1, q2] at e4 e5 e6 e7 e8 e9 e10
      have e1 := inj e1
      have e2 := inj e2
      have e3 := inj e3
      have e4 := inj' e4
      have e5 := inj' e5
      have e6 := inj' e6
      have e7 := inj' e7
      have e8 := inj' e8
      have e9 := inj' e9
      have e10 := inj' e10
      rw [e1, e2, e3] at e11
      have e11 := mul_right_cancel₀ (pow_ne_zero 5 hx) (add_left_cancel e11)
      rw [e4, e5, e6, e7, e8, e9, e10] at e12
      have e12 : r1.tau_2 * x ^ 2 = r2.tau_2 * x ^ 2 := by linear_combination e12
      have e12 := mul_right_cancel₀ (pow_ne_zero 2 hx) e12
      apply Subtype.ext
      cases r1
      cases r2
      simp only at *
      subst_vars
      rfl
    · rintro ⟨c, hl, hr⟩
      obtain ⟨aI, k1, -⟩ := hs (c.A_I - KI)
      obtain ⟨aO, k2, -⟩ := hs (c.A_O - KO)
      obtain ⟨gamma, k3, -⟩ := hs (c.A_W - KW)
      let sL := (List.range m).map fun i => (x ^ 5)⁻¹ * (c.l.getD i 0 - a i)
      let sR := (List.range m).map fun i => (x ^ 5 * y ^ i)⁻¹ * (c.r.getD i 0 - b i)
      obtain ⟨t3, k4, -⟩ := hs (c.T_3 - (t sL sR).t3 • gens.g)
      obtain ⟨t5, k5, -⟩ := hs (c.T_5 - (t sL sR).t5 • gens.g)
      obtain ⟨t6, k6, -⟩ := hs (c.T_6 - (t sL sR).t6 • gens.g)
      obtain ⟨t7, k7, -⟩ := hs (c.T_7 - (t sL sR).t7 • gens.g)
      obtain ⟨t8, k8, -⟩ := hs (c.T_8 - (t sL sR).t8 • gens.g)
      obtain ⟨t9, k9, -⟩ := hs (c.T_9 - (t sL sR).t9 • gens.g)
      obtain ⟨t10, k10, -⟩ := hs (c.T_10 - (t sL sR).t10 • gens.g)
      refine ⟨⟨⟨sL, sR, aI, aO, (c.mu - aI * x ^ 2 - aO * x ^ 3 - gamma * x ^ 4) * (x ^ 5)⁻¹, gamma,
        (c.tau_x - t3 * x ^ 3 - t5 * x ^ 5 - t6 * x ^ 6 - t7 * x ^ 7 - t8 * x ^ 8 - t9 * x ^ 9 - t10 * x ^ 10) *
          (x ^ 2)⁻¹, t3, t5, t6, t7, t8, t9, t10⟩, by simp [sL], by simp [sR]⟩, ?_⟩
      apply Subtype.ext
      have h5 := pow_ne_zero 5 hx
      cases c
      simp only [f, Choice.mk.injEq] at *
      refine ⟨?_, ?_, ?_, ?_, ?_, ?_, ?_, ?_, ?_, ?_, ?_, ?_, ?_, ?_⟩
      · rw [← k1]; abel
      · rw [← k2]; abel
      · rw [← k3]; abel
      · rw [← k4]; abel
      · rw [← k5]; abel
      · rw [← k6]; abel
      · rw [← k7]; abel
      · rw [← k8]; abel
      · rw [← k9]; abel
      · rw [← k10]; abel
      · field_simp; ring
      · field_simp; ring
      · refine Eq.trans ?_ (map_range_getD _ hl)
        apply List.map_congr_left
        intro i hi
        simp only [sL]
        rw [range_map_getD, if_pos (List.mem_range.mp hi), mul_inv_cancel_left₀ h5]
        ring
      · refine Eq.trans ?_ (map_range_getD _ hr)
        apply List.map_congr_left
        intro i hi
        simp only [sR]
        rw [range_map_getD, if_pos (List.mem_range.mp hi),
          mul_inv_cancel_left₀ (mul_ne_zero h5 (pow_ne_zero i hy))]
        ring
  refine ⟨Equiv.ofBijective f hbij, fun rnd => ?_⟩
  obtain ⟨ipp, hipp, hp⟩ := hrun rnd.1
  obtain ⟨v, hvec, hT, hP⟩ := verifyProof_elim ch gens _ circuit pi ho (hv rnd _ hp)
  rw [hp, Equiv.ofBijective_apply]
  unfold simulateBp
  have hl : (List.range gens.N).map (fun i => a i + x ^ 5 * rnd.1.sL.getD i 0) =
      (f rnd).1.l ++ List.replicate (gens.N - m) 0 := by
    rw [tail_split m _ hmN]
    congr 1
    rw [List.eq_replicate_iff]
    refine ⟨by simp, fun w hw => ?_⟩
    obtain ⟨i, -, rfl⟩ := List.mem_map.mp hw
    rw [(htail (m + i) (by omega)).1, List.getD_eq_default _ _ (by rw [rnd.2.1]; omega), mul_zero, add_zero]
  have hr : (List.range gens.N).map (fun i => b i + x ^ 5 * y ^ i * rnd.1.sR.getD i 0) =
      (f rnd).1.r ++ (List.range (gens.N - m)).map fun i => -(x * y ^ (m + i)) := by
    rw [tail_split m _ hmN]
    congr 1
    apply List.map_congr_left
    intro i _
    rw [(htail (m + i) (by omega)).2, List.getD_eq_default _ _ (by rw [rnd.2.2]; omega), mul_zero, add_zero]
  rw [← hydef] at hvec
  rw [← hxdef] at hT hP
  simp only [hl, hr] at hipp hT hP ⊢
  simp only [hgn, hgw, ← hm, ← hxdef, ← hydef, hvec, Option.bind_some, hipp, Option.map_some, Option.some.injEq,
    Bp.Proof.mk.injEq]
  unfold checkT at hT
  unfold checkP at hP
  simp only at hT hP
  refine ⟨rfl, rfl, rfl, ?_, ?_, rfl, rfl, rfl, rfl, rfl, rfl, rfl, rfl, rfl, trivial, trivial, trivial, trivial, trivial⟩
  · apply solve (pow_ne_zero 5 hx)
    have := sub_eq_zero.mpr hP
    apply sub_eq_zero.mp
    rw [← this]
    module
  · apply solve (pow_ne_zero 2 hx)
    have := sub_eq_zero.mpr hT.symm
    apply sub_eq_zero.mp
    rw [← this]
    module

/-- C98.  For every circuit whose combinations mention no variable twice, every satisfying assignment, all
generators of the right number with a blinding generator of which every point is exactly one multiple, and
nonzero challenges fixed beforehand: there is a bijection that turns the prover's random values into the
simulator's choices such that prover and simulator output the same proof. The simulator does not know the
assignment of the auxiliary variables. -/
theorem C98_simulation (ch : Oracle F G) (ho : Oblivious ch) (hch : ∀ t, ch t ≠ 0) (cs : CS F)
    (publicInputs : List F) (hone : cs.inputs = 1 :: publicInputs)
    (hnr : ∀ k ∈ cs.constraints, k.a.NoRepeat ∧ k.b.NoRepeat ∧ k.c.NoRepeat)
    (hsat : cs.Sat cs.witness) (hc : cs.constraints ≠ []) (hr : Groth16.inRange cs = true)
    (gv hv : List G) (g h u : G) (hs : Spans F h)
    (hgl : gv.length = nextPow2 (max cs.constraints.length cs.aux.length))
    (hhl : hv.length = nextPow2 (max cs.constraints.length cs.aux.length)) :
    ∃ f : Rands F (max cs.constraints.length cs.aux.length) ≃ Choices F G (max cs.constraints.length cs.aux.length),
      ∀ rnd, createProof ch cs gv hv g h u rnd.1 =
        (simulateBp ch (gensOf cs gv hv g h u) (toCircuit cs) publicInputs (f rnd).1).map
          fun p => (gensOf cs gv hv g h u, toCircuit cs, p) := by
  have hta : toAssignment (toCircuit cs) cs.inputs cs.aux = some
      ⟨cs.constraints.map fun k => dot (denseRow cs.inputs.length (cs.inputs.length + cs.aux.length) k.a)
        (cs.inputs ++ cs.aux),
       cs.constraints.map fun k => dot (denseRow cs.inputs.length (cs.inputs.length + cs.aux.length) k.b)
        (cs.inputs ++ cs.aux),
       cs.constraints.map fun k => dot (denseRow cs.inputs.length (cs.inputs.length + cs.aux.length) k.c)
        (cs.inputs ++ cs.aux), cs.inputs, cs.aux⟩ := by
    unfold toAssignment toCircuit
    simp only
    rw [vmpt_ok cs R1C.a, vmpt_ok cs R1C.b, vmpt_ok cs R1C.c]
  have hcr : ∀ rnd, createProof ch cs gv hv g h u rnd = (prove ch (gensOf cs gv hv g h u) (toCircuit cs)
      ⟨cs.constraints.map fun k => dot (denseRow cs.inputs.length (cs.inputs.length + cs.aux.length) k.a)
        (cs.inputs ++ cs.aux),
       cs.constraints.map fun k => dot (denseRow cs.inputs.length (cs.inputs.length + cs.aux.length) k.b)
        (cs.inputs ++ cs.aux),
       cs.constraints.map fun k => dot (denseRow cs.inputs.length (cs.inputs.length + cs.aux.length) k.c)
        (cs.inputs ++ cs.aux), cs.inputs, cs.aux⟩ rnd).map fun p => (gensOf cs gv hv g h u, toCircuit cs, p) := by
    intro rnd
    unfold createProof
    rw [if_neg (by simp [hr])]
    simp only
    rw [hta]
    simp only [List.length_map]
    rfl
  obtain ⟨f, hf⟩ := simulation ch ho hch (gensOf cs gv hv g h u) hs (toCircuit cs)
    ⟨cs.constraints.map fun k => dot (denseRow cs.inputs.length (cs.inputs.length + cs.aux.length) k.a)
        (cs.inputs ++ cs.aux),
       cs.constraints.map fun k => dot (denseRow cs.inputs.length (cs.inputs.length + cs.aux.length) k.b)
        (cs.inputs ++ cs.aux),
       cs.constraints.map fun k => dot (denseRow cs.inputs.length (cs.inputs.length + cs.aux.length) k.c)
        (cs.inputs ++ cs.aux), cs.inputs, cs.aux⟩ publicInputs (by simp [gensOf]) rfl (by simp [gensOf])
    (by simpa [gensOf] using hgl) (by simpa [gensOf] using hhl) (by simp) (by simp)
    (by simpa [List.length_eq_zero_iff] using hc) (by
      intro rnd p hp
      have h1 := rnd.2.1
      have h2 := rnd.2.2
      simp only [List.length_map] at h1 h2
      exact (bulletproofs_complete ch cs publicInputs hone hnr hsat gv hv g h u rnd.1 hgl hhl h1 h2 _ _ p
        (by rw [hcr, hp]; rfl)).2.2)
  have hm : max cs.constraints.length cs.aux.length = max (cs.constraints.map fun k =>
    dot (denseRow cs.inputs.length (cs.inputs.length + cs.aux.length) k.a) (cs.inputs ++ cs.aux)).length cs.aux.length := by
    rw [List.length_map]
  rw [hm]
  exact ⟨f, fun rnd => by rw [hcr, hf]⟩

/-- C98, for two witnesses: proofs for two satisfying assignments with the same public inputs are the same up to
a bijection of the prover's random values. -/
theorem C98_indistinguishable (ch : Oracle F G) (ho : Oblivious ch) (hch : ∀ t, ch t ≠ 0) (cs cs' : CS F)
    (publicInputs : List F) (hone : cs.inputs = 1 :: publicInputs)
    (hcon : cs'.constraints = cs.constraints) (hin : cs'.inputs = cs.inputs) (haux : cs'.aux.length = cs.aux.length)
    (hnr : ∀ k ∈ cs.constraints, k.a.NoRepeat ∧ k.b.NoRepeat ∧ k.c.NoRepeat)
    (hsat : cs.Sat cs.witness) (hsat' : cs'.Sat cs'.witness)
    (hc : cs.constraints ≠ []) (hr : Groth16.inRange cs = true)
    (gv hv : List G) (g h u : G) (hs : Spans F h)
    (hgl : gv.length = nextPow2 (max cs.constraints.length cs.aux.length))
    (hhl : hv.length = nextPow2 (max cs.constraints.length cs.aux.length)) :
    ∃ f : Rands F (max cs.constraints.length cs.aux.length) ≃ Rands F (max cs.constraints.length cs.aux.length),
      ∀ rnd, createProof ch cs gv hv g h u rnd.1 = createProof ch cs' gv hv g h u (f rnd).1 := by
  obtain ⟨f, hf⟩ := C98_simulation ch ho hch cs publicInputs hone hnr hsat hc hr gv hv g h u hs hgl hhl
  have hr' : Groth16.inRange cs' = true := by
    rw [← hr]; unfold Groth16.inRange; rw [hcon, hin, haux]
  have hf0 := C98_simulation ch ho hch cs' publicInputs (hin.trans hone) (by rwa [hcon]) hsat'
    (by rwa [hcon]) hr' gv hv g h u hs (by rw [hcon, haux, hgl]) (by rw [hcon, haux, hhl])
  have hg : gensOf cs' gv hv g h u = gensOf cs gv hv g h u := by unfold gensOf; rw [hcon, hin, haux]
  have ht : toCircuit cs' = toCircuit cs := by unfold toCircuit; rw [hcon, hin, haux]
  have hm : max cs'.constraints.length cs'.aux.length = max cs.constraints.length cs.aux.length := by rw [hcon, haux]
  rw [hg, ht, hm] at hf0
  obtain ⟨f', hf'⟩ := hf0
  refine ⟨f.trans f'.symm, fun rnd => ?_⟩
  rw [hf rnd, hf']
  simp

end

/-! The circuit `x · x = 9` over `ZMod 17` has the witnesses `3` and `14`. -/

namespace BpEx

/-- The run with the other root. -/
def cs' : CS F17 := ⟨true, [1, 9], [14], [⟨[(.aux 0, 1)], [(.aux 0, 1)], [(.input 1, 1)]⟩]⟩

theorem cs'_sat : cs'.Sat cs'.witness := by
  intro k hk
  have : k = ⟨[(.aux 0, 1)], [(.aux 0, 1)], [(.input 1, 1)]⟩ := by simpa [cs'] using hk
  subst this
  simp [R1C.Holds, LC.eval, CS.witness, cs']
  decide

theorem ch_oblivious : Oblivious ch := fun t t' h => by unfold ch; rw [h]

theorem six_spans : Spans F17 (6 : F17) := fun p => ⟨p * 3, by
  simp only [smul_eq_mul]; exact ⟨by revert p; decide, by revert p; decide⟩⟩

/-- All hypotheses hold for these two runs: proofs from `3` and from `14` are the same up to the random values. -/
example : cs.aux ≠ cs'.aux ∧ ∃ f : Rands F17 1 ≃ Rands F17 1, ∀ rnd : Rands F17 1,
    createProof ch cs [4] [5] 7 6 8 rnd.1 = createProof ch cs' [4] [5] 7 6 8 (f rnd).1 := by
  have h1 : nextPow2 (max cs.constraints.length cs.aux.length) = 1 := by decide
  exact ⟨by decide, C98_indistinguishable ch ch_oblivious (by intro t; unfold ch; split <;> decide) cs cs' [9] rfl
    rfl rfl rfl (by
      intro k hk
      have : k = ⟨[(.aux 0, 1)], [(.aux 0, 1)], [(.input 1, 1)]⟩ := by simpa [cs] using hk
      subst this
      simp [LC.NoRepeat]) cs_sat cs'_sat (by simp [cs]) (by decide) [4] [5] 7 6 8 six_spans (by rw [h1]; rfl)
    (by rw [h1]; rfl)⟩

end BpEx

end Zkp
