/- When the rounds of Marlin's prover succeed. -/
import Verif.Proof.MarlinHonest

set_option linter.unusedSectionVars false
set_option linter.unusedSimpArgs false

namespace Zkp.Marlin

open Polynomial

variable {F : Type} [Field F] [DecidableEq F]
variable {G1 G2 GT : Type} [AddCommGroup G1] [AddCommGroup G2] [AddCommGroup GT]
  [Module F G1] [Module F G2] [Module F GT]

theorem vanish_natDegree (D : Domain F) : (X ^ D.size - 1 : F[X]).natDegree = D.size := by
  rw [← C_1]
  exact natDegree_X_pow_sub_C

theorem div_vanish_natDegree {D : Domain F} (h : D.Valid) (p : F[X]) :
    (p / (X ^ D.size - 1)).natDegree = p.natDegree - D.size := by
  rw [← divByMonic_eq_div _ (vanish_monic h), natDegree_divByMonic _ (vanish_monic h), vanish_natDegree]

theorem plen_le (p : F[X]) : plen p ≤ p.natDegree + 1 := by
  unfold plen
  split <;> omega

theorem plen_eq {p : F[X]} {n : Nat} (h : plen p = n + 1) : p ≠ 0 ∧ p.natDegree = n := by
  unfold plen at h
  split at h
  · cases h
  · rename_i h0
    exact ⟨h0, by omega⟩

theorem first_exists {s : PState F} {c : Coins F} {p : Nat} (hs : Sub s.X s.H p)
    (hfit : s.X.size + s.witness.length ≤ s.H.size) (hm : c.mask.degree < s.H.size) (hm0 : c.mask ≠ 0) :
    ∃ o, firstRound s c = .ok o ∧ o.za = interpolate s.H s.za + C c.za * (X ^ s.H.size - 1) ∧
      o.zb = interpolate s.H s.zb + C c.zb * (X ^ s.H.size - 1) ∧ o.mask = c.mask - C (c.mask.coeff 0) ∧
      (c.w ≠ 0 → o.w ≠ 0 ∧ o.w.natDegree + s.X.size = s.H.size) ∧
      ∀ i < s.H.size, (o.w * (X ^ s.X.size - 1) + interpolate s.X s.inputs).eval (s.H.ω ^ i) =
        if i % p = 0 then s.inputs.getD (i / p) 0
        else (s.witness ++ List.replicate (s.H.size - s.X.size - s.witness.length) 0).getD (i - i / p - 1) 0 := by
  obtain ⟨z, hz, hze⟩ := zPoly_ok hs s.inputs s.witness c.w hfit
  unfold zPoly at hz
  obtain ⟨w, hw, hz⟩ := Kzg.bind_ok hz
  injection hz with hz
  have hmod : c.mask % (X ^ s.H.size - 1) = c.mask := by
    rw [mod_eq_self_iff (vanish_monic hs.hv).ne_zero]
    have e : (X ^ s.H.size - 1 : F[X]).degree = s.H.size := by
      rw [← C_1]
      exact degree_X_pow_sub_C hs.hv.pos 1
    rw [e]
    exact hm
  have hmask : maskPoly s.H c.mask = .ok (c.mask - C (c.mask.coeff 0)) := by
    unfold maskPoly
    rw [hmod, if_neg hm0]
  refine ⟨⟨w, _, _, _⟩, by unfold firstRound; rw [hw, hmask]; rfl, rfl, rfl, rfl, ?_, ?_⟩
  · intro hcw
    unfold wPoly at hw
    obtain ⟨v, hv, hw⟩ := Kzg.bind_ok hw
    dsimp only at hw
    split at hw
    · rename_i h0
      injection hw with hw
      have hp := blinded_natDegree hs.hv v hcw
      obtain ⟨h1, h2⟩ := plen_eq hp
      have e := EuclideanDomain.div_add_mod (interpolate s.H v + C c.w * (X ^ s.H.size - 1)) (X ^ s.X.size - 1)
      rw [h0, add_zero, hw] at e
      have hw0 : w ≠ 0 := by
        rintro rfl
        rw [mul_zero] at e
        exact h1 e.symm
      refine ⟨hw0, ?_⟩
      have e2 := congrArg natDegree e
      rw [natDegree_mul (vanish_monic hs.dv).ne_zero hw0, vanish_natDegree, h2] at e2
      dsimp only
      omega
    · cases hw
  · intro i hi
    dsimp only
    rw [hz]
    exact hze i hi

theorem sample_zero {H : Domain F} {stream : Nat → F} (h : H.vanishing (stream 0) ≠ 0) :
    sampleOutside H stream 0 = some (stream 0, 1) := by
  unfold sampleOutside
  have hex : ∃ i, 0 ≤ i ∧ H.vanishing (stream i) ≠ 0 := ⟨0, le_rfl, h⟩
  rw [dif_pos hex]
  have : Nat.find hex = 0 := by
    rw [Nat.find_eq_zero]
    exact ⟨le_rfl, h⟩
  rw [this]

theorem q1Poly_exists {mk : Nat → Option (Domain F)} (hmk : MkOk mk) {mask r m t z : F[X]} {E : Domain F}
    (hE : mk (max (plen mask) (max (plen r + plen m) (plen t + plen z))) = some E) :
    q1Poly mk mask r m t z = .ok (mask + (r * m - t * z)) := by
  have h1 : ∃ q, q1Poly mk mask r m t z = .ok q := by
    unfold q1Poly domain
    rw [hE]
    exact ⟨_, rfl⟩
  obtain ⟨q, hq⟩ := h1
  rw [hq, q1Poly_ok hmk hq]

theorem second_exists {mk : Nat → Option (Domain F)} (hmk : MkOk mk) {d : IndexData F} {s : PState F}
    {o : FirstOracles F} {m : FirstMsg F} {D E : Domain F} (hD : mk s.inputs.length = some D) {tv : List F}
    (ht : tEvals s.H D d m (batchEvals s.H m.alpha) = .ok tv)
    (hE : mk (max (plen o.mask) (max (plen (interpolate s.H (batchEvals s.H m.alpha)) + plen (mPoly m o.za o.zb))
      (plen (interpolate s.H tv) + plen (zOf D o.w (interpolate D s.inputs))))) = some E) (h2 : 2 ≤ s.H.size)
    {q : F[X]} (hq : q = o.mask + (interpolate s.H (batchEvals s.H m.alpha) * mPoly m o.za o.zb
      - interpolate s.H tv * zOf D o.w (interpolate D s.inputs)))
    (hne : q % (X ^ s.H.size - 1) ≠ 0) :
    secondRound mk d s o m = .ok ⟨interpolate s.H tv, (q % (X ^ s.H.size - 1)).divX, q / (X ^ s.H.size - 1)⟩ := by
  unfold secondRound
  have e1 : domain mk s.inputs.length = .ok D := by unfold domain; rw [hD]
  simp only [e1, ht, bind, Except.bind, q1Poly_exists hmk hE]
  rw [← hq, if_neg (by rintro (h | h); exacts [hne h, by omega])]

theorem third_exists {mk : Nat → Option (Domain F)} {d : IndexData F} {s : PState F}
    {m : FirstMsg F} {β : F} {B : Domain F} (hB : mk (3 * s.K.size - 3) = some B) (h2 : 2 ≤ s.K.size)
    (hne : interpolate s.K (tOnK s.K (s.H.vanishing m.alpha) (s.H.vanishing β) m β d) ≠ 0) :
    ∃ o3, thirdRound mk d s m β = .ok o3 ∧
      o3.g2 = (interpolate s.K (tOnK s.K (s.H.vanishing m.alpha) (s.H.vanishing β) m β d)).divX := by
  unfold thirdRound
  have e1 : domain mk (3 * s.K.size - 3) = .ok B := by unfold domain; rw [hB]
  simp only [e1, bind, Except.bind]
  rw [if_neg (by rintro (h | h); exacts [hne h, by omega])]
  exact ⟨_, rfl, rfl⟩

/-- A polynomial together with its shifted copy, at coefficient `n`. -/
noncomputable def topCoeff (s n : Nat) (p : Kzg.LabeledPolynomial F) : F :=
  p.polynomial.coeff n + match p.degree_bound with
    | none => 0
    | some d => (X ^ (s - d) * p.polynomial).coeff n

theorem fold_top {τ : F} {g γ : G1} {s n : Nat} :
    ∀ (ts : List (Kzg.LabeledPolynomial F × Kzg.LabeledCommitment G1 × Kzg.Randomness F)),
    (∀ t ∈ ts, Kzg.Commits τ g γ s t.1 t.2.1 t.2.2) → ∀ a : F[X] × F[X] × F, a.2.2 = 1 → a.1.natDegree ≤ s →
    ∃ a', (ts.map fun t => (t.1, t.2.2)).foldlM (Kzg.openStep s 1) a = .ok a' ∧
      a'.1.coeff n = a.1.coeff n + (ts.map fun t => topCoeff s n t.1).sum ∧ a'.1.natDegree ≤ s := by
  intro ts
  induction ts with
  | nil => intro _ a _ ha; exact ⟨a, rfl, by simp, ha⟩
  | cons t ts ih =>
    intro hts a h1 ha
    have hc := hts t List.mem_cons_self
    have hstep : ∃ b, Kzg.openStep s 1 a (t.1, t.2.2) = .ok b ∧ b.2.2 = 1 ∧ b.1.natDegree ≤ s ∧
        b.1.coeff n = a.1.coeff n + topCoeff s n t.1 := by
      unfold Kzg.openStep topCoeff
      dsimp only
      cases hb : t.1.degree_bound with
      | none =>
        refine ⟨_, rfl, by simp [h1], Kzg.natDegree_add_le' ha (Kzg.natDegree_C_mul_le' _ hc.deg), ?_⟩
        simp [h1]
      | some d =>
        obtain ⟨hd, hdeg, sr, hsr, -⟩ := hc.some d hb
        dsimp only
        rw [hsr]
        dsimp only
        rw [if_neg (by omega)]
        refine ⟨_, rfl, by simp [h1], ?_, ?_⟩
        · refine Kzg.natDegree_add_le' (Kzg.natDegree_add_le' ha (Kzg.natDegree_C_mul_le' _ hc.deg))
            (Kzg.natDegree_C_mul_le' _ ?_)
          unfold Kzg.shiftPolynomial
          refine natDegree_mul_le.trans ?_
          rw [natDegree_X_pow]
          omega
        · simp [h1, Kzg.shiftPolynomial, add_assoc]
    obtain ⟨b, b1, b2, b3, b4⟩ := hstep
    obtain ⟨a', c1, c2, c3⟩ := ih (fun t ht => hts t (List.mem_cons_of_mem _ ht)) b b2 b3
    refine ⟨a', ?_, ?_, c3⟩
    · rw [List.map_cons, List.foldlM_cons, b1]
      exact c1
    · rw [c2, b4, List.map_cons, List.sum_cons, add_assoc]

/-- A group can be opened, for the opening challenge one, if the sum has a non-zero coefficient. -/
theorem openGroup_exists {τ : F} {g γ : G1} {s n : Nat} (hn : 1 ≤ n)
    {ts : List (Kzg.LabeledPolynomial F × Kzg.LabeledCommitment G1 × Kzg.Randomness F)}
    (hts : ∀ t ∈ ts, Kzg.Commits τ g γ s t.1 t.2.1 t.2.2) (hnd : ((ts.map (·.1)).map (·.label)).Nodup) {z : F}
    {ps : List (Kzg.LabeledPolynomial F)} (hps : ∀ p ∈ ps, p ∈ ts.map (·.1))
    (hne : (ps.map (topCoeff s n)).sum ≠ 0) :
    ∃ proof, Kzg.openGroup ⟨Kzg.pows τ g (s + 1), Kzg.pows τ γ (s + 1), s⟩ (ts.map fun t => (t.1, t.2.2)) 1
      (z, ps.map (·.label)) = .ok proof := by
  have hsel : ∃ us : List (Kzg.LabeledPolynomial F × Kzg.LabeledCommitment G1 × Kzg.Randomness F),
      us.map (·.1) = ps ∧ (∀ u ∈ us, u ∈ ts) ∧
      (ps.map (·.label)).mapM (fun l => Kzg.orMissing .missingPolynomial
        (Kzg.lookupLast (fun pr : Kzg.LabeledPolynomial F × Kzg.Randomness F => pr.1.label)
          (ts.map fun t => (t.1, t.2.2)) l)) = .ok (us.map fun u => (u.1, u.2.2)) := by
    clear hne
    induction ps with
    | nil => exact ⟨[], rfl, by simp, rfl⟩
    | cons p ps ih =>
      obtain ⟨us, u1, u2, u3⟩ := ih fun q hq => hps q (List.mem_cons_of_mem _ hq)
      obtain ⟨t, ht, rfl⟩ := List.mem_map.mp (hps p List.mem_cons_self)
      have key : ∀ l : List (Kzg.LabeledPolynomial F × Kzg.LabeledCommitment G1 × Kzg.Randomness F),
          ((l.map (·.1)).map (·.label)).Nodup → t ∈ l →
          l.find? (fun u => u.1.label = t.1.label) = some t := by
        intro l
        induction l with
        | nil => intro _ h; cases h
        | cons q l ih =>
          intro hn hm
          rw [List.map_cons, List.map_cons, List.nodup_cons] at hn
          rw [List.find?_cons]
          rcases List.mem_cons.mp hm with rfl | hm
          · simp
          · have : q.1.label ≠ t.1.label := fun h => hn.1 (by
              rw [h, List.map_map]; exact List.mem_map_of_mem (f := fun u => u.1.label) hm)
            simp only [this, decide_false]
            exact ih hn.2 hm
      have hl : Kzg.lookupLast (fun u => u.1.label) ts t.1.label = some t := by
        unfold Kzg.lookupLast
        refine key ts.reverse ?_ (List.mem_reverse.mpr ht)
        rw [List.map_reverse, List.map_reverse]
        exact List.nodup_reverse.mpr hnd
      refine ⟨t :: us, by rw [List.map_cons, u1], ?_, ?_⟩
      · intro u hu
        rcases List.mem_cons.mp hu with rfl | hu
        exacts [ht, u2 u hu]
      · rw [List.map_cons, List.mapM_cons, u3, Kzg.lookupLast_map]
        rw [hl]
        rfl
  obtain ⟨us, u1, u2, u3⟩ := hsel
  unfold Kzg.openGroup
  dsimp only
  rw [u3]
  obtain ⟨a, a1, a2, a3⟩ := fold_top (n := n) us (fun u hu => hts u (u2 u hu)) (0, 0, 1) rfl (by simp)
  have hz : ((us.map fun u => (u.1, u.2.2)).map (·.1)).zip ((us.map fun u => (u.1, u.2.2)).map (·.2))
      = us.map fun u => (u.1, u.2.2) := by
    rw [List.map_map, List.map_map, List.zip_map']
    rfl
  have hc : a.1.coeff n ≠ 0 := by
    rw [a2]
    have : us.map (fun t => topCoeff s n t.1) = ps.map (topCoeff s n) := by rw [← u1, List.map_map]; rfl
    rw [this]
    simpa using hne
  have h1 : 1 ≤ a.1.natDegree := hn.trans (le_natDegree_of_ne_zero hc)
  obtain ⟨proof, hp⟩ := Kzg.openAt_spec (β := τ) (g := g) (γ := γ) (n := s + 1) (m := s + 1) (r := a.2.1) (z := z)
    h1 (by omega)
  refine ⟨proof, ?_⟩
  simp only [bind, Except.bind]
  unfold Kzg.pcOpen
  rw [hz]
  simp only [bind, Except.bind]
  rw [a1]
  exact hp

end Zkp.Marlin
