/- C17, C18: MiMC. -/
import Verif.Proof.Mimc
import Verif.Proof.BlsPrime
import Verif.Spec.Bytes

set_option linter.unusedSectionVars false
set_option linter.unusedSimpArgs false

namespace Zkp

variable {F : Type} [Field F]

/-! ### C17 – the circuit is bound to the function -/

/-- Soundness: for all round constants and all preimage values (known or not), every satisfying
assignment gives the last variable the MiMC function of the values of the two preimage variables. -/
theorem C17_circuit_sound (k : List F) (hk : k.length = 322) (xl xr : Option F) (cs cs' : CS F)
    (r : (Index × Index) × Mimc.St F) (hrun : Mimc.circuit k xl xr cs = .ok (r, cs'))
    (w : Index → F) (hone : w .one = 1) (hsat : cs'.Sat w) :
    cs.Sat w ∧ w r.2.xl = mimcSpec k (w r.1.1) (w r.1.2) := by
  obtain ⟨e, q⟩ := Mimc.circuit_snd k xl xr cs r cs' hrun
  exact ⟨e.sat hsat, by rw [q w hone hsat, Mimc.block_eq hk]⟩

/-- Native hash: it is the MiMC chaining of the elements; the preimage handed to the circuit is the
chaining value before the last element, and the last element. -/
theorem C17_native (k : List F) (hk : k.length = 322) (v : List F) (x : F) :
    Mimc.hashElems k (v ++ [x]) = some (mimcChain k v, x, mimcChain k (v ++ [x])) :=
  Mimc.hashElems_eq hk v x

/-- Completeness and agreement: on the preimage the native hash hands over, an honest run succeeds,
satisfies all constraints, and its last variable carries the native hash of the whole input. -/
theorem C17_circuit_complete (k : List F) (hk : k.length = 322) (v : List F) (x : F) (cs : CS F)
    (hgood : cs.Good) :
    ∃ xl xr h, Mimc.hashElems k (v ++ [x]) = some (xl, xr, h) ∧ h = mimcChain k (v ++ [x]) ∧
      ∃ r cs', Mimc.circuit k (some xl) (some xr) cs = .ok (r, cs') ∧ cs.Ext cs' ∧ cs'.Good ∧
        VarIs cs' r.1.1 xl ∧ VarIs cs' r.1.2 xr ∧ VarIs cs' r.2.xl h := by
  refine ⟨_, _, _, Mimc.hashElems_eq hk v x, rfl, ?_⟩
  obtain ⟨r, cs', h1, h2, h3, h4, h5, h6⟩ := Mimc.circuit_cmp k (cs := cs) (mimcChain k v) x hgood
  refine ⟨r, cs', h1, h2, h3, h4, h5, ?_⟩
  rw [Mimc.block_eq hk] at h6
  simpa [mimcChain, List.foldl_append] using h6

/-- Synthesising for proving without a preimage is refused. -/
theorem C17_missing_value (k : List F) (xr : Option F) (cs : CS F) (hp : cs.proving = true) :
    Mimc.circuit k none xr cs = .error .assignmentMissing := by
  have h := alloc_missing hp .assignmentMissing
  simp only [Mimc.circuit, bind, StateT.bind, okOr, h, Except.bind]

/-- C17, concrete case: constants `0, 1, …, 321` in the BLS12-381 scalar field, hashing `[3, 5]`. -/
example : (List.map (fun i : Nat => (i : ZMod blsR)) (List.range 322)).length = 322 ∧
    ∃ r cs', Mimc.circuit (List.map (fun i : Nat => (i : ZMod blsR)) (List.range 322)) (some 3) (some 5)
      (CS.new true) = .ok (r, cs') ∧ cs'.Sat cs'.witness ∧ cs'.witness .one = 1 := by
  refine ⟨(List.length_map _).trans List.length_range, ?_⟩
  obtain ⟨r, cs', h1, _, h3, _⟩ := Mimc.circuit_cmp (List.map (fun i : Nat => (i : ZMod blsR)) (List.range 322))
    (cs := CS.new true) 3 5 (CS.good_new (F := ZMod blsR))
  exact ⟨r, cs', h1, h3.sat, h3.witness_one⟩

/-! ### C18 – does the native hash separate inputs? -/

/-- The property as stated: byte strings of equal length that become the same field elements are
equal, and hashing never panics. -/
def C18_statement (p n : Nat) [Fact p.Prime] : Prop :=
  (∀ b1 b2 : List UInt8, b1.length = b2.length → bytesToField p n b1 = bytesToField p n b2 →
    b1 = b2) ∧
  ∀ (b : List UInt8) (k : List (ZMod p)), k.length = 322 → Mimc.hash n b k ≠ none

/-- Violation, for every field and every size above one byte: the one-byte messages `0` and `1`
(indeed every short message) become the element `0`, so their hashes agree for all constants. -/
theorem C18_violated_short (p n : Nat) [Fact p.Prime] (hn : 1 < n) :
    bytesToField p n [0] = bytesToField p n [1] ∧
    ∀ k : List (ZMod p), Mimc.hash n [0] k = Mimc.hash n [1] k := by
  have : bytesToField p n [0] = bytesToField p n [1] := by
    obtain ⟨m, rfl⟩ : ∃ m, n = m + 2 := ⟨n - 2, by omega⟩
    unfold bytesToField chunks
    simp [readLe]
  exact ⟨this, fun k => by unfold Mimc.hash Mimc.hashBytes; rw [this]⟩

/-- Violation with full-size pieces: in the BLS12-381 scalar field the 32-byte messages `ff…ff` and
`00…00` become the same element. -/
theorem C18_violated_overflow : List.replicate 32 (255 : UInt8) ≠ List.replicate 32 0 ∧
    bytesToField blsR 32 (List.replicate 32 255) = bytesToField blsR 32 (List.replicate 32 0) := by
  refine ⟨by decide, ?_⟩
  have h : ∀ x : UInt8, chunks 32 (List.replicate 32 x) = [List.replicate 32 x] := by
    intro x
    unfold chunks
    rw [dif_neg (by simp [List.replicate]), List.take_replicate, List.drop_replicate]
    unfold chunks
    simp
  unfold bytesToField
  rw [h, h]
  have e1 : readLe 32 (List.replicate 32 255) = some (2 ^ 256 - 1, []) := by decide +kernel
  have e2 : readLe 32 (List.replicate 32 0) = some (0, []) := by decide +kernel
  simp only [List.map_cons, List.map_nil, e1, e2]
  rw [if_neg (by decide +kernel)]
  split <;> simp

/-- Violation: hashing the empty string panics, for every field. -/
theorem C18_violated_empty (p n : Nat) [Fact p.Prime] (k : List (ZMod p)) :
    Mimc.hash n [] k = none := by
  unfold Mimc.hash Mimc.hashBytes bytesToField chunks
  simp [Mimc.hashElems_nil]

theorem C18_violated (p n : Nat) [Fact p.Prime] (hn : 1 < n) : ¬ C18_statement p n := fun h =>
  absurd (h.1 [0] [1] rfl (C18_violated_short p n hn).1) (by decide)

theorem readLe_val (c : List UInt8) : readLe c.length c = some (bytesVal c, []) := by
  induction c with
  | nil => rfl
  | cons b c ih => simp [readLe, ih, bytesVal]

theorem bytesVal_inj (a b : List UInt8) (h : a.length = b.length) (hv : bytesVal a = bytesVal b) :
    a = b := by
  induction a generalizing b with
  | nil => cases b <;> simp_all
  | cons x a ih =>
    cases b with
    | nil => simp at h
    | cons y b =>
      simp only [bytesVal, List.foldr_cons] at hv
      have hx := x.toNat_lt; have hy := y.toNat_lt
      have e1 : x.toNat = y.toNat := by omega
      have e2 : bytesVal a = bytesVal b := by unfold bytesVal; omega
      rw [UInt8.toNat_inj.mp e1, ih b (by simpa using h) e2]

/-- What holds (`_partial`: only inputs made of whole pieces, each an integer below the modulus;
missing: short last pieces, pieces not below the modulus, the empty input). -/
theorem C18_separates_partial (p n : Nat) [Fact p.Prime] (hn : 0 < n) (b1 b2 : List UInt8)
    (hlen : b1.length = b2.length) (hmul : n ∣ b1.length)
    (h1 : ∀ c ∈ chunks n b1, bytesVal c < p) (h2 : ∀ c ∈ chunks n b2, bytesVal c < p)
    (he : bytesToField p n b1 = bytesToField p n b2) : b1 = b2 := by
  obtain ⟨m, hm⟩ := hmul
  induction m generalizing b1 b2 with
  | zero =>
    rw [Nat.mul_zero] at hm
    exact (List.length_eq_zero_iff.mp hm).trans (List.length_eq_zero_iff.mp (hlen.symm.trans hm)).symm
  | succ m ih =>
    have key : ∀ b : List UInt8, b.length = n * (m + 1) →
        chunks n b = b.take n :: chunks n (b.drop n) := by
      intro b hb
      have : b ≠ [] := by
        rintro rfl
        simp at hb; omega
      conv => lhs; unfold chunks
      rw [dif_neg (by simp [this]; omega)]
    have htl : ∀ b : List UInt8, b.length = n * (m + 1) → (b.take n).length = n := by
      intro b hb
      rw [List.length_take, hb, Nat.mul_succ]; omega
    have hm2 := hlen ▸ hm
    have hval : ∀ b : List UInt8, b.length = n * (m + 1) → (∀ c ∈ chunks n b, bytesVal c < p) →
        bytesToField p n b = (bytesVal (b.take n) : ZMod p) :: bytesToField p n (b.drop n) := by
      intro b hb hc
      unfold bytesToField
      rw [key b hb, List.map_cons]
      have := readLe_val (b.take n)
      rw [htl b hb] at this
      simp only [this]
      rw [if_pos (hc _ (by rw [key b hb]; exact List.mem_cons_self))]
    rw [hval b1 hm h1, hval b2 hm2 h2, List.cons.injEq] at he
    have p1 := h1 (b1.take n) (by rw [key b1 hm]; exact List.mem_cons_self)
    have p2 := h2 (b2.take n) (by rw [key b2 hm2]; exact List.mem_cons_self)
    have hv : bytesVal (b1.take n) = bytesVal (b2.take n) := by
      have := he.1
      rw [ZMod.natCast_eq_natCast_iff', Nat.mod_eq_of_lt p1, Nat.mod_eq_of_lt p2] at this
      exact this
    have ht := bytesVal_inj _ _ ((htl b1 hm).trans (htl b2 hm2).symm) hv
    have hd := ih (b1.drop n) (b2.drop n) (by simp [hlen])
      (fun c hc => h1 c (by rw [key b1 hm]; exact List.mem_cons_of_mem _ hc))
      (fun c hc => h2 c (by rw [key b2 hm2]; exact List.mem_cons_of_mem _ hc)) he.2
      (by rw [List.length_drop, hm, Nat.mul_succ]; omega)
    rw [← List.take_append_drop n b1, ← List.take_append_drop n b2, ht, hd]

private theorem pieces_le {n : Nat} : ∀ {b c : List UInt8}, c ∈ chunks n b → c.length ≤ n := by
  intro b
  induction hb : b.length using Nat.strong_induction_on generalizing b with
  | _ m ih =>
    intro c hc
    unfold chunks at hc
    split at hc
    · simp at hc
    · next h =>
      rcases List.mem_cons.1 hc with rfl | hc
      · rw [List.length_take]; omega
      · have h0 : 0 < n ∧ 0 < b.length := by
          rw [not_or] at h
          exact ⟨by omega, List.length_pos_iff.2 (by tauto)⟩
        exact ih (b.drop n).length (by rw [List.length_drop]; omega) rfl hc

theorem readLe_short (n : Nat) (c : List UInt8) (h : c.length < n) : readLe n c = none := by
  induction c generalizing n with
  | nil =>
    cases n with
    | zero => simp at h
    | succ n => rfl
  | cons b c ih =>
    cases n with
    | zero => simp at h
    | succ n => unfold readLe; rw [ih n (by simpa using h)]

/-- Exactly which messages are confused: those whose pieces have the same values once every piece that is too short or
not below the modulus is replaced by zero. -/
theorem C18_exact (p n : Nat) [Fact p.Prime] (b1 b2 : List UInt8) :
    bytesToField p n b1 = bytesToField p n b2 ↔
      ((chunks n b1).map fun c => if c.length = n ∧ bytesVal c < p then bytesVal c else 0) =
      ((chunks n b2).map fun c => if c.length = n ∧ bytesVal c < p then bytesVal c else 0) := by
  have hp : 0 < p := (Fact.out : p.Prime).pos
  have key : ∀ b : List UInt8, bytesToField p n b =
      ((chunks n b).map fun c => if c.length = n ∧ bytesVal c < p then bytesVal c else 0).map (Nat.cast : Nat → ZMod p) := by
    intro b
    unfold bytesToField
    rw [List.map_map]
    refine List.map_congr_left fun c hc => ?_
    have hle := pieces_le hc
    simp only [Function.comp_apply]
    rcases Nat.lt_or_ge c.length n with hlt | hge
    · simp [readLe_short n c hlt, show ¬ c.length = n by omega]
    · have he : c.length = n := by omega
      have := readLe_val c
      rw [he] at this
      by_cases hv : bytesVal c < p <;> simp [this, he, hv]
  have hlt : ∀ b : List UInt8, ∀ v ∈ ((chunks n b).map fun c => if c.length = n ∧ bytesVal c < p then bytesVal c else 0),
      v < p := by
    intro b v hv
    rw [List.mem_map] at hv
    obtain ⟨c, -, rfl⟩ := hv
    split
    · next h => exact h.2
    · exact hp
  rw [key b1, key b2]
  constructor
  · intro h
    have h1 := hlt b1
    have h2 := hlt b2
    generalize ((chunks n b1).map fun c => if c.length = n ∧ bytesVal c < p then bytesVal c else 0) = l1 at *
    generalize ((chunks n b2).map fun c => if c.length = n ∧ bytesVal c < p then bytesVal c else 0) = l2 at *
    clear key hlt
    induction l1 generalizing l2 with
    | nil =>
      cases l2 with
      | nil => rfl
      | cons => simp at h
    | cons x l1 ih =>
      cases l2 with
      | nil => simp at h
      | cons y l2 =>
        rw [List.map_cons, List.map_cons, List.cons.injEq, ZMod.natCast_eq_natCast_iff',
          Nat.mod_eq_of_lt (h1 x (by simp)), Nat.mod_eq_of_lt (h2 y (by simp))] at h
        rw [h.1, ih (fun v hv => h1 v (by simp [hv])) l2 (fun v hv => h2 v (by simp [hv])) h.2]
  · intro h; rw [h]

/-- Over `ZMod 17` with pieces of two bytes: the short last byte and the large second piece are lost. -/
example : bytesToField 17 2 [5, 0, 1, 1, 9] = bytesToField 17 2 [5, 0, 0, 0, 3] := by
  have : Fact (Nat.Prime 17) := ⟨by norm_num⟩
  rw [C18_exact]
  have h : ∀ x y z : UInt8, chunks 2 [5, 0, x, y, z] = [[5, 0], [x, y], [z]] := by
    intro x y z
    repeat (unfold chunks; simp)
  rw [h, h]
  decide

/-- Hashing any non-empty input succeeds (`_partial`: the empty input panics). -/
theorem C18_nonempty_partial (p n : Nat) [Fact p.Prime] (hn : 0 < n) (b : List UInt8) (hb : b ≠ [])
    (k : List (ZMod p)) : ∃ h, Mimc.hash n b k = some h := by
  unfold Mimc.hash Mimc.hashBytes Mimc.hashElems bytesToField chunks
  rw [dif_neg (by simp [hb]; omega)]
  rw [List.map_cons]
  cases h : (List.getLast? _ : Option (ZMod p)) with
  | none => simp at h
  | some x => simp

/-- C18, concrete case of the separation hypotheses: two different 64-byte inputs. -/
example : (64 : Nat) = (List.replicate 64 (1 : UInt8)).length ∧
    (∀ c ∈ chunks 32 (List.replicate 64 (1 : UInt8)), bytesVal c < blsR) ∧
    (∀ c ∈ chunks 32 (List.replicate 64 (2 : UInt8)), bytesVal c < blsR) := by
  have h : ∀ x : UInt8, chunks 32 (List.replicate 64 x) =
      [List.replicate 32 x, List.replicate 32 x] := by
    intro x
    unfold chunks
    rw [dif_neg (by simp [List.replicate]), List.take_replicate, List.drop_replicate]
    unfold chunks
    rw [dif_neg (by simp [List.replicate]), List.take_replicate, List.drop_replicate]
    unfold chunks
    simp
  have e1 : bytesVal (List.replicate 32 1) < blsR := by decide +kernel
  have e2 : bytesVal (List.replicate 32 2) < blsR := by decide +kernel
  refine ⟨rfl, ?_, ?_⟩ <;> rw [h] <;> simp only [List.mem_cons, List.not_mem_nil, or_false,
    or_self] <;> rintro c rfl <;> assumption

end Zkp
