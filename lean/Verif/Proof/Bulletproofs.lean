/- Proofs about the Bulletproofs model. -/
import Verif.Model.Bulletproofs
import Verif.Proof.Dot
import Verif.Proof.Field
import Mathlib.Data.Nat.Log
import Mathlib.Tactic.FieldSimp

set_option linter.unusedSectionVars false
set_option linter.unusedSimpArgs false

namespace Zkp

/-! ### Multi-scalar multiplication -/

section
variable {F : Type} [Field F] {G : Type} [AddCommGroup G] [Module F G]

@[simp] theorem msm_nil_left (s : List F) : msm ([] : List G) s = 0 := by simp [msm]
@[simp] theorem msm_nil_right (g : List G) : msm g ([] : List F) = 0 := by simp [msm]
@[simp] theorem msm_cons (g : G) (gs : List G) (s : F) (ss : List F) :
    msm (g :: gs) (s :: ss) = s • g + msm gs ss := by simp [msm]

theorem msm_smul (g : List G) (s : List F) (k : F) : msm g (s.map (k * ·)) = k • msm g s := by
  induction g generalizing s with
  | nil => simp
  | cons a g ih =>
    cases s with
    | nil => simp
    | cons b s => simp [ih, smul_add, smul_smul]

theorem msm_append (g g' : List G) (s s' : List F) (h : g.length = s.length) :
    msm (g ++ g') (s ++ s') = msm g s + msm g' s' := by
  unfold msm; rw [List.zipWith_append h, List.sum_append]

/-- Bases beyond the scalars are ignored. -/
theorem msm_take (g : List G) (s : List F) : msm (g.take s.length) s = msm g s := by
  induction s generalizing g with
  | nil => simp
  | cons a s ih => cases g with
    | nil => simp
    | cons b g => simp [ih]

/-- Splitting the bases where the first block of scalars ends. -/
theorem msm_split (g : List G) (s s' : List F) (h : s.length ≤ g.length) :
    msm g (s ++ s') = msm g s + msm (g.drop s.length) s' := by
  induction s generalizing g with
  | nil => simp
  | cons a s ih => cases g with
    | nil => simp at h
    | cons b g => simp only [List.cons_append, msm_cons, List.length_cons, List.drop_succ_cons]
                  rw [ih g (by simpa using h), add_assoc]

theorem msm_zipWith_add (l r : List G) (x y : F) (s : List F) (h : l.length = r.length) :
    msm (List.zipWith (fun a b => x • a + y • b) l r) s = x • msm l s + y • msm r s := by
  induction l generalizing r s with
  | nil => cases r with
    | nil => simp
    | cons => simp at h
  | cons a l ih => cases r with
    | nil => simp at h
    | cons b r => cases s with
      | nil => simp
      | cons c s =>
        simp only [List.zipWith_cons_cons, msm_cons, ih r s (by simpa using h)]
        module

theorem msm_scalars_add (g : List G) (s t : List F) (x y : F) (h : s.length = t.length) :
    msm g (List.zipWith (fun a b => a * x + b * y) s t) = x • msm g s + y • msm g t := by
  induction s generalizing g t with
  | nil => cases t with
    | nil => simp
    | cons => simp at h
  | cons a s ih => cases t with
    | nil => simp at h
    | cons b t => cases g with
      | nil => simp
      | cons c g =>
        simp only [List.zipWith_cons_cons, msm_cons, ih g t (by simpa using h)]
        module

theorem dot_zipWith (l r : List F) (x y : F) (s : List F) (h : l.length = r.length) :
    dot (List.zipWith (fun a b => a * x + b * y) l r) s = x * dot l s + y * dot r s := by
  induction l generalizing r s with
  | nil => cases r with
    | nil => simp
    | cons => simp at h
  | cons a l ih => cases r with
    | nil => simp at h
    | cons b r => cases s with
      | nil => simp
      | cons c s =>
        simp only [List.zipWith_cons_cons, dot_cons, ih r s (by simpa using h)]
        ring
end

namespace Bp

variable {F : Type} [Field F] {G : Type} [AddCommGroup G] [Module F G]

/-! ### The coefficients `s` -/

/-- The coefficients by recursion on the challenges. -/
def sRec : List F → List F
  | [] => [1]
  | x :: xs => (sRec xs).map (x⁻¹ * ·) ++ (sRec xs).map (x * ·)

@[simp] theorem sRec_length (xs : List F) : (sRec xs).length = 2 ^ xs.length := by
  induction xs with
  | nil => rfl
  | cons x xs ih => simp [sRec, ih, pow_succ]; omega

theorem map_mul_getD (l : List F) (k : F) (i : Nat) : (l.map (k * ·)).getD i 0 = k * l.getD i 0 := by
  have := List.getD_map (l := l) (n := i) (d := 0) (fun x => k * x)
  rw [← this, mul_zero]

theorem sRec_zero (xs : List F) : (sRec xs).getD 0 0 = xs.foldl (fun acc x => acc * x⁻¹) 1 := by
  have hf : ∀ (xs : List F) (a : F), xs.foldl (fun acc x => acc * x⁻¹) a =
      a * xs.foldl (fun acc x => acc * x⁻¹) 1 := by
    intro xs
    induction xs with
    | nil => simp
    | cons x xs ih => intro a; rw [List.foldl_cons, ih, List.foldl_cons, ih (1 * x⁻¹)]; ring
  induction xs with
  | nil => rfl
  | cons x xs ih =>
    rw [sRec, List.getD_append _ _ _ _ (by simp), map_mul_getD, ih, List.foldl_cons, hf xs (1 * x⁻¹)]
    ring

theorem sRec_step (xs : List F) (hx : ∀ x ∈ xs, x ≠ 0) (m : Nat) (h1 : 1 ≤ m) (hm : m < 2 ^ xs.length) :
    (sRec xs).getD m 0 = (sRec xs).getD (m - 2 ^ Nat.log2 m) 0 *
      (xs.map fun x => x * x).getD ((xs.length - 1) - Nat.log2 m) 0 := by
  induction xs generalizing m with
  | nil => simp at hm; omega
  | cons x xs ih =>
    have hx0 : x ≠ 0 := hx x List.mem_cons_self
    rw [List.length_cons, pow_succ] at hm
    have hle : 2 ^ Nat.log2 m ≤ m := Nat.log2_self_le (by omega)
    by_cases hb : m < 2 ^ xs.length
    · have hlog : Nat.log2 m < xs.length := (Nat.log2_lt (by omega)).mpr hb
      rw [sRec, List.getD_append _ _ _ _ (by simpa using hb), map_mul_getD,
        List.getD_append _ _ _ _ (lt_of_le_of_lt (Nat.sub_le _ _) (by simpa using hb)), map_mul_getD,
        ih (fun y hy => hx y (List.mem_cons_of_mem _ hy)) m h1 hb]
      have : (x :: xs).length - 1 - Nat.log2 m = (xs.length - 1 - Nat.log2 m) + 1 := by
        simp; omega
      rw [this, List.map_cons, List.getD_cons_succ]
      ring
    · have hlog : Nat.log2 m = xs.length := by
        have h2 : Nat.log2 m < xs.length + 1 := (Nat.log2_lt (by omega)).mpr (by rw [pow_succ]; omega)
        have h3 : ¬ Nat.log2 m < xs.length := fun h => hb ((Nat.log2_lt (by omega)).mp h)
        omega
      rw [hlog, sRec, List.getD_append_right _ _ _ _ (by simp; omega), map_mul_getD,
        List.getD_append _ _ _ _ (by simp; omega), map_mul_getD, List.length_map, sRec_length]
      have : (x :: xs).length - 1 - xs.length = 0 := by simp
      rw [this, List.map_cons, List.getD_cons_zero]
      field_simp

theorem ippS_eq (xs : List F) (hx : ∀ x ∈ xs, x ≠ 0) : ippS xs = sRec xs := by
  unfold ippS
  simp only
  have key : ∀ c, c + 1 ≤ 2 ^ xs.length →
      (List.range' 1 c).foldl (fun s i => s ++ [s.getD (i - 2 ^ Nat.log2 i) 0 *
        (xs.map fun x => x * x).getD ((xs.length - 1) - Nat.log2 i) 0])
        [xs.foldl (fun acc x => acc * x⁻¹) 1] = (sRec xs).take (c + 1) := by
    intro c
    induction c with
    | zero =>
      intro _
      simp only [List.range'_zero, List.foldl_nil]
      have hl : 0 < (sRec xs).length := by simp
      rw [← sRec_zero]
      generalize sRec xs = l at hl ⊢
      cases l with
      | nil => simp at hl
      | cons a t => simp
    | succ c ih =>
      intro hc
      rw [List.range'_concat, List.foldl_append, ih (by omega)]
      simp only [List.foldl_cons, List.foldl_nil, one_mul]
      have hlog : 1 ≤ 2 ^ Nat.log2 (1 + c) := Nat.one_le_two_pow
      have hlt : c + 1 < (sRec xs).length := by rw [sRec_length]; omega
      have hget : ((sRec xs).take (c + 1)).getD (1 + c - 2 ^ Nat.log2 (1 + c)) 0 =
          (sRec xs).getD (1 + c - 2 ^ Nat.log2 (1 + c)) 0 := by
        rw [List.getD_eq_getElem _ _ (by rw [List.length_take]; omega),
          List.getD_eq_getElem _ _ (by omega)]
        simp
      rw [hget, ← sRec_step xs hx (1 + c) (by omega) (by omega), List.take_succ (i := c + 1),
        List.getD_eq_getElem _ _ (by omega), List.getElem?_eq_getElem hlt]
      simp [add_comm]
  have hp : 1 ≤ 2 ^ xs.length := Nat.one_le_two_pow
  rw [key (2 ^ xs.length - 1) (by omega)]
  rw [Nat.sub_add_cancel hp, ← sRec_length xs, List.take_length]

theorem sRec_reverse (xs : List F) : (sRec xs).reverse = sRec (xs.map fun x => x⁻¹) := by
  induction xs with
  | nil => rfl
  | cons x xs ih =>
    rw [sRec, List.reverse_append, List.map_cons, sRec, ← ih, inv_inv, List.map_reverse, List.map_reverse]

/-! ### The inner-product argument -/

theorem msm_sRec (x : F) (xs : List F) (g : List G) (c : F) (hg : 2 * 2 ^ xs.length ≤ g.length) :
    msm g ((sRec (x :: xs)).map (c * ·)) =
      msm (List.zipWith (fun l r => x⁻¹ • l + x • r) (g.take (2 ^ xs.length)) (g.drop (2 ^ xs.length)))
        ((sRec xs).map (c * ·)) := by
  rw [msm_smul, msm_smul, sRec, msm_split _ _ _ (by simp; omega), msm_smul, msm_smul]
  congr 1
  have hz : List.zipWith (fun l r => x⁻¹ • l + x • r) (g.take (2 ^ xs.length)) (g.drop (2 ^ xs.length)) =
      List.zipWith (fun l r => x⁻¹ • l + x • r) (g.take (2 ^ xs.length))
        ((g.drop (2 ^ xs.length)).take (2 ^ xs.length)) := by
    conv_lhs => rw [List.zipWith_eq_zipWith_take_min]
    congr 1
    · rw [List.take_of_length_le]; simp; omega
    · congr 1; simp; omega
  have e1 : msm (g.take (2 ^ xs.length)) (sRec xs) = msm g (sRec xs) := by
    rw [← sRec_length xs, msm_take]
  have e2 : msm ((g.drop (2 ^ xs.length)).take (2 ^ xs.length)) (sRec xs) =
      msm (g.drop (2 ^ xs.length)) (sRec xs) := by
    conv_lhs => rw [← sRec_length xs]
    rw [sRec_length, ← sRec_length xs, msm_take]
  rw [hz, msm_zipWith_add _ _ _ _ _ (by simp; omega), e1, e2]
  simp

theorem fold_bases (g : List G) (n : Nat) (x y : F) (s : List F) (hs : s.length = n)
    (hg : 2 * n ≤ g.length) :
    msm (List.zipWith (fun l r => x • l + y • r) (g.take n) (g.drop n)) s =
      x • msm g s + y • msm (g.drop n) s := by
  subst hs
  have hz : List.zipWith (fun l r => x • l + y • r) (g.take s.length) (g.drop s.length) =
      List.zipWith (fun l r => x • l + y • r) (g.take s.length)
        ((g.drop s.length).take s.length) := by
    conv_lhs => rw [List.zipWith_eq_zipWith_take_min]
    congr 1
    · rw [List.take_of_length_le]; simp; omega
    · congr 1; simp; omega
  rw [hz, msm_zipWith_add _ _ _ _ _ (by simp; omega), msm_take, msm_take]

theorem ippLoop_ok [DecidableEq F] (ch : Oracle F G) (u : G) (k : Nat) (tr : Transcript F G)
    (g h : List G) (a b : List F) (p : IppProof F G) (ha : a.length = 2 ^ k) (hb : b.length = 2 ^ k)
    (hg : 2 ^ k ≤ g.length) (hh : 2 ^ k ≤ h.length) (hp : ippLoop ch u k tr g h a b = some p) :
    p.L_vec.length = k ∧ p.R_vec.length = k ∧ ∃ xs, ippChallenges ch tr p.L_vec p.R_vec = some xs ∧
      xs.length = k ∧ (∀ x ∈ xs, x ≠ 0) ∧
      msm g ((sRec xs).map (p.a * ·)) + msm h ((sRec (xs.map fun x => x⁻¹)).map (p.b * ·)) +
          (p.a * p.b) • u =
        msm p.L_vec (xs.map fun x => x * x) + msm p.R_vec (xs.map fun x => x⁻¹ * x⁻¹) +
          (msm g a + msm h b + dot a b • u) := by
  induction k generalizing tr g h a b p with
  | zero =>
    match a, b, ha, hb, hp with
    | [a], [b], _, _, hp =>
      simp only [ippLoop, Option.some.injEq] at hp
      subst hp
      refine ⟨rfl, rfl, [], rfl, rfl, by simp, ?_⟩
      match g, h, hg, hh with
      | g :: gs, h :: hs, _, _ => simp [sRec]
  | succ k ih =>
    rw [pow_succ] at ha hb hg hh
    simp only [ippLoop] at hp
    rw [if_neg (by omega)] at hp
    set n := 2 ^ k with hn
    set L := msm (g.drop n) (a.take n) + msm (h.take n) (b.drop n) +
      innerProduct (a.take n) (b.drop n) • u with hL
    set R := msm (g.take n) (a.drop n) + msm (h.drop n) (b.take n) +
      innerProduct (a.drop n) (b.take n) • u with hR
    set x := ch (tr ++ [.pt "L" L, .pt "R" R, .chal "x"]) with hx
    by_cases hx0 : x = 0
    · rw [if_pos hx0] at hp; cases hp
    rw [if_neg hx0, Option.map_eq_some_iff] at hp
    obtain ⟨p', hp', rfl⟩ := hp
    obtain ⟨l1, l2, xs, hc, hl, hne, he⟩ := ih _ _ _ _ _ p' (by simp; omega) (by simp; omega)
      (by simp; omega) (by simp; omega) hp'
    refine ⟨by simp [l1], by simp [l2], x :: xs, ?_, by simp [hl], ?_, ?_⟩
    · simp only [ippChallenges]
      rw [← hx, if_neg hx0, hc]; rfl
    · intro y hy
      rcases List.mem_cons.mp hy with rfl | hy
      · exact hx0
      · exact hne y hy
    · have e1 := msm_sRec x xs g p'.a (by rw [hl]; omega)
      have e2 := msm_sRec x⁻¹ (xs.map fun x => x⁻¹) h p'.b (by rw [List.length_map, hl]; omega)
      rw [inv_inv] at e2
      rw [List.length_map] at e2
      simp only [List.map_cons, msm_cons]
      rw [e1, e2, hl, ← hn, he]
      -- split everything into halves
      have lenaL : (a.take n).length = n := by simp; omega
      have lenaR : (a.drop n).length = n := by simp; omega
      have lenbL : (b.take n).length = n := by simp; omega
      have lenbR : (b.drop n).length = n := by simp; omega
      have sa : msm g a = msm g (a.take n) + msm (g.drop n) (a.drop n) := by
        conv_lhs => rw [← List.take_append_drop n a]
        rw [msm_split _ _ _ (by omega), lenaL]
      have sb : msm h b = msm h (b.take n) + msm (h.drop n) (b.drop n) := by
        conv_lhs => rw [← List.take_append_drop n b]
        rw [msm_split _ _ _ (by omega), lenbL]
      have sd : dot a b = dot (a.take n) (b.take n) + dot (a.drop n) (b.drop n) := by
        conv_lhs => rw [← List.take_append_drop n a, ← List.take_append_drop n b]
        rw [dot_append (by omega)]
      have tg : msm (g.take n) (a.drop n) = msm g (a.drop n) := by
        have := msm_take g (a.drop n)
        rwa [lenaR] at this
      have th : msm (h.take n) (b.drop n) = msm h (b.drop n) := by
        have := msm_take h (b.drop n)
        rwa [lenbR] at this
      have iL : innerProduct (a.take n) (b.drop n) = dot (a.take n) (b.drop n) := rfl
      have iR : innerProduct (a.drop n) (b.take n) = dot (a.drop n) (b.take n) := rfl
      rw [hL, hR, fold_bases g n _ _ _ (by simp; omega) (by omega),
        fold_bases h n _ _ _ (by simp; omega) (by omega), msm_scalars_add _ _ _ _ _ (by omega),
        msm_scalars_add _ _ _ _ _ (by omega), msm_scalars_add _ _ _ _ _ (by omega),
        msm_scalars_add _ _ _ _ _ (by omega), dot_zipWith _ _ _ _ _ (by omega), dot_comm (a.take n),
        dot_comm (a.drop n), dot_zipWith _ _ _ _ _ (by omega), dot_zipWith _ _ _ _ _ (by omega),
        sa, sb, sd, tg, th, iL, iR, dot_comm (a.take n) (b.take n), dot_comm (a.drop n) (b.drop n),
        dot_comm (a.take n) (b.drop n), dot_comm (a.drop n) (b.take n)]
      match_scalars <;> field_simp <;> ring

theorem ippLoop_some [DecidableEq F] (ch : Oracle F G) (hch : ∀ t, ch t ≠ 0) (u : G) (k : Nat)
    (tr : Transcript F G) (g h : List G) (a b : List F) (ha : a.length = 2 ^ k) (hb : b.length = 2 ^ k)
    (hg : 2 ^ k ≤ g.length) (hh : 2 ^ k ≤ h.length) : ∃ p, ippLoop ch u k tr g h a b = some p := by
  induction k generalizing tr g h a b with
  | zero =>
    match a, b, ha, hb with
    | [a], [b], _, _ => exact ⟨_, rfl⟩
  | succ k ih =>
    rw [pow_succ] at ha hb hg hh
    simp only [ippLoop]
    rw [if_neg (by omega), if_neg (hch _)]
    have : ∀ o : Option (IppProof F G), (∃ p, o = some p) → ∀ L R,
        ∃ p, o.map (fun p => (⟨L :: p.L_vec, R :: p.R_vec, p.a, p.b⟩ : IppProof F G)) = some p := by
      rintro o ⟨p, rfl⟩ L R; exact ⟨_, rfl⟩
    apply this
    apply ih <;> simp <;> omega

/-! ### The forged proof -/

theorem msm_add (g : List G) (s t : List F) (h : s.length = t.length) :
    msm g (List.zipWith (· + ·) s t) = msm g s + msm g t := by
  have := msm_scalars_add g s t 1 1 h
  simpa using this

theorem msm_replicate_zero (g : List G) (n : Nat) : msm g (List.replicate n (0 : F)) = 0 := by
  induction n generalizing g with
  | zero => simp
  | succ n ih => cases g with
    | nil => simp
    | cons a g => simp [List.replicate_succ, ih]

/-- All vectors have length `N`. -/
theorem vectors_length [DecidableEq F] {gens : Generators G} {circuit : R1csCircuit F} {inputs : List F}
    {y z : F} {v : Vectors F} (h : vectors gens circuit inputs y z = some v) :
    v.y_n.length = gens.N ∧ v.zQ_WO.length = gens.N ∧ v.zQ_WL.length = gens.N ∧
      v.zQ_neg_WV.length = gens.N := by
  unfold vectors at h
  simp only at h
  split at h
  · cases h
  · split at h
    · cases h
    · rw [Option.map_eq_some_iff] at h
      obtain ⟨c, _, rfl⟩ := h
      simp [vectorProduct, vectorMapProduct]

theorem vectors_some [DecidableEq F] (gens : Generators G) (circuit : R1csCircuit F) (inputs : List F)
    (y z : F) (hy : y ≠ 0) (hn : gens.n ≠ 0) (hk : gens.k = inputs.length) :
    ∃ v, vectors gens circuit inputs y z = some v := by
  unfold vectors
  simp only
  rw [if_neg (by simp [hy]), if_neg hn]
  unfold vectorMatrixProductT
  rw [if_pos (by simp [hk])]
  exact ⟨_, rfl⟩

/-- A proof made without looking at the circuit's satisfiability: zero commitments, and `l_x`, `r_x`,
`t_x` solved from the two linear checks. -/
def forge (v : Vectors F) (x : F) : Proof F G where
  A_I := 0
  A_O := 0
  A_W := 0
  S := 0
  T_2 := 0
  T_3 := 0
  T_5 := 0
  T_6 := 0
  T_7 := 0
  T_8 := 0
  T_9 := 0
  T_10 := 0
  mu := 0
  tau_x := 0
  l_x := v.ynInvZQWR.map (x * x * ·)
  r_x := List.zipWith (· + ·)
    (List.zipWith (· + ·) ((v.y_n.map fun a => -1 * a).map (x * ·)) (v.zQ_WO.map (x * ·)))
    (List.zipWith (· + ·) (v.zQ_WL.map (x * x * ·)) v.zQ_neg_WV)
  t_x := x * x * (x * x) * (v.delta_yz + innerProduct v.z_Q v.c)
  IPP := ⟨[], [], 0, 0⟩
  IPP_P := 0

theorem forge_accepted [DecidableEq F] [DecidableEq G] (ch : Oracle F G) (gens : Generators G)
    (circuit : R1csCircuit F) (publicInputs : List F) (hn : gens.n ≠ 0)
    (hk : gens.k = publicInputs.length + 1) (hN : gens.N ≤ gens.h_vec_N.length)
    (hy : ch (startTr gens circuit (1 :: publicInputs) 0 0 0 0 ++ [.chal "y"]) ≠ 0) :
    ∃ p, verifyProof ch gens p circuit publicInputs = some true := by
  set tr1 : Transcript F G := startTr gens circuit (1 :: publicInputs) 0 0 0 0 ++ [.chal "y"] with htr1
  obtain ⟨v, hv⟩ := vectors_some gens circuit (1 :: publicInputs) (ch tr1) (ch (tr1 ++ [.chal "z"])) hy hn
    (by simpa using hk)
  have hlen := vectors_length hv
  set x := ch ((tr1 ++ [.chal "z"]) ++ [.pt "T_2" 0, .pt "T_3" 0, .pt "T_5" 0, .pt "T_6" 0, .pt "T_7" 0,
    .pt "T_8" 0, .pt "T_9" 0, .pt "T_10" 0] ++ [.chal "x"]) with hx
  refine ⟨forge v x, ?_⟩
  have hT : checkT gens v (forge v x) x := by
    simp [checkT, forge]
  have hP : checkP gens v (forge v x) x := by
    unfold checkP forge
    simp only [smul_zero, zero_add, add_zero, zero_smul]
    rw [msm_add _ _ _ (by simp [hlen]), msm_add _ _ _ (by simp [hlen]),
      msm_add _ _ _ (by simp [hlen])]
    simp only [msm_smul]
    abel
  have hI : ∀ tr u, ippVerify ch tr gens.g_vec_N gens.h_vec_N u (forge v x : Proof F G).IPP_P
      (forge v x : Proof F G).IPP = some true := by
    intro tr u
    simp only [ippVerify, forge, List.length_nil, ne_eq, not_true_eq_false, if_false, ippChallenges,
      Option.map_some, List.map_nil, msm_nil_left, zero_mul, zero_smul, add_zero, Option.some.injEq,
      beq_iff_eq, List.map_const']
    simp [msm_replicate_zero]
  unfold verifyProof
  simp only
  have e1 : startTr gens circuit (1 :: publicInputs) (forge v x : Proof F G).A_I (forge v x : Proof F G).A_O
      (forge v x : Proof F G).A_W (forge v x : Proof F G).S ++ [.chal "y"] = tr1 := rfl
  rw [e1, hv]
  simp only
  rw [if_neg (by omega), hI]
  simp only
  have e2 : ch (tr1 ++ [.chal "z"] ++ tTr (forge v x) ++ [.chal "x"]) = x := rfl
  rw [e2, if_pos hT]
  simp [hP]

/-! ### Dense rows -/

theorem pos_inj {n : Nat} {i j : Index} (hi : ∀ k, i = .input k → k < n) (hj : ∀ k, j = .input k → k < n)
    (h : Groth16.pos n i = Groth16.pos n j) : i = j := by
  cases i with
  | input a =>
    have := hi a rfl
    cases j with
    | input b => simp only [Groth16.pos] at h; rw [h]
    | aux b => simp only [Groth16.pos] at h; omega
  | aux a =>
    cases j with
    | input b => have := hj b rfl; simp only [Groth16.pos] at h; omega
    | aux b => simp only [Groth16.pos] at h; congr 1; omega

theorem dot_set_zero (l z : List F) (k : Nat) (v : F) (hl : k < l.length) (hz : k < z.length)
    (h0 : l.getD k 0 = 0) : dot (l.set k v) z = dot l z + v * z.getD k 0 := by
  induction l generalizing z k with
  | nil => simp at hl
  | cons a l ih =>
    cases z with
    | nil => simp at hz
    | cons b z =>
      cases k with
      | zero =>
        simp only [List.getD_cons_zero] at h0
        simp only [List.set_cons_zero, dot_cons, List.getD_cons_zero, h0]; ring
      | succ k =>
        simp only [List.set_cons_succ, dot_cons, List.getD_cons_succ]
        rw [ih z k (by simpa using hl) (by simpa using hz) (by simpa using h0)]; ring

theorem denseRow_dot (cs : CS F) (l : LC F) (hr : ∀ t ∈ l, match t.1 with
      | .input i => i < cs.inputs.length | .aux i => i < cs.aux.length) (hn : l.NoRepeat) :
    dot (denseRow cs.inputs.length (cs.inputs.length + cs.aux.length) l) (cs.inputs ++ cs.aux) =
      l.eval cs.witness := by
  have hpos : ∀ t ∈ l, Groth16.pos cs.inputs.length t.1 < (cs.inputs ++ cs.aux).length ∧
      (cs.inputs ++ cs.aux).getD (Groth16.pos cs.inputs.length t.1) 0 = cs.witness t.1 := by
    intro t ht
    have h := hr t ht
    rcases t with ⟨i | i, c⟩
    · have h : i < cs.inputs.length := h
      refine ⟨by simp [Groth16.pos]; omega, ?_⟩
      simp only [Groth16.pos, CS.witness]
      rw [List.getD_append _ _ _ _ h]
    · have h : i < cs.aux.length := h
      refine ⟨by simp [Groth16.pos, h], ?_⟩
      simp only [Groth16.pos, CS.witness]
      rw [List.getD_append_right _ _ _ _ (by omega)]
      congr 1; omega
  unfold denseRow LC.eval
  have key : ∀ (l : LC F) (row : List F), row.length = (cs.inputs ++ cs.aux).length → l.NoRepeat →
      (∀ t ∈ l, Groth16.pos cs.inputs.length t.1 < (cs.inputs ++ cs.aux).length ∧
        (cs.inputs ++ cs.aux).getD (Groth16.pos cs.inputs.length t.1) 0 = cs.witness t.1 ∧
        (∀ k, t.1 = .input k → k < cs.inputs.length)) →
      (∀ t ∈ l, row.getD (Groth16.pos cs.inputs.length t.1) 0 = 0) →
      dot (l.foldl (fun row t => row.set (Groth16.pos cs.inputs.length t.1) t.2) row)
        (cs.inputs ++ cs.aux) = dot row (cs.inputs ++ cs.aux) +
          (l.map fun t => t.2 * cs.witness t.1).sum := by
    intro l
    induction l with
    | nil => intro row _ _ _ _; simp
    | cons t l ih =>
      intro row hrow hnr hp h0
      have hnr' : t.1 ∉ l.map Prod.fst ∧ (l.map Prod.fst).Nodup := by
        simpa [LC.NoRepeat, List.nodup_cons] using hnr
      obtain ⟨p1, p2, p3⟩ := hp t List.mem_cons_self
      rw [List.foldl_cons, ih _ (by simpa using hrow) hnr'.2
        (fun s hs => hp s (List.mem_cons_of_mem _ hs)), dot_set_zero _ _ _ _ (by omega) p1
        (h0 t List.mem_cons_self), p2, List.map_cons, List.sum_cons]
      · ring
      · intro s hs
        have hne : Groth16.pos cs.inputs.length t.1 ≠ Groth16.pos cs.inputs.length s.1 := by
          intro he
          have := pos_inj p3 (hp s (List.mem_cons_of_mem _ hs)).2.2 he
          exact hnr'.1 (this ▸ List.mem_map_of_mem hs)
        have := h0 s (List.mem_cons_of_mem _ hs)
        rw [List.getD_eq_getElem?_getD] at this ⊢
        rw [List.getElem?_set_ne hne]; exact this
  rw [key l _ (by simp) hn]
  · rw [dot_replicate_zero, zero_add]
  · intro t ht
    refine ⟨(hpos t ht).1, (hpos t ht).2, ?_⟩
    intro k hk
    have := hr t ht
    rw [hk] at this; exact this
  · intro t ht
    rw [List.getD_eq_getElem _ _ (by have := (hpos t ht).1; simpa using this)]
    simp

@[simp] theorem denseRow_length (a b : Nat) (l : LC F) : (denseRow a b l).length = b := by
  unfold denseRow
  have : ∀ (l : LC F) (row : List F),
      (l.foldl (fun row t => row.set (Groth16.pos a t.1) t.2) row).length = row.length := by
    intro l
    induction l with
    | nil => intro _; rfl
    | cons t l ih => intro row; rw [List.foldl_cons, ih]; simp
  rw [this]; simp

theorem matrixToMap_get [DecidableEq F] (m : List (List F)) (i j : Nat) :
    (matrixToMap m (i, j)).getD 0 = (m.getD i []).getD j 0 := by
  unfold matrixToMap
  simp only [List.getD_eq_getElem?_getD]
  cases h : m[i]? with
  | none => simp
  | some r =>
    simp only [Option.bind_some, Option.getD_some]
    cases h2 : r[j]? with
    | none => simp
    | some v => by_cases hv : v = 0 <;> simp [hv]

end Bp

end Zkp
