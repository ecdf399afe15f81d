/- BLAKE2s circuit: every step implements the corresponding step of the specification. -/
import Verif.Proof.Sha256
import Verif.Model.Blake2s

set_option linter.unusedSectionVars false
set_option linter.unusedSimpArgs false

namespace Zkp

variable {F : Type} [Field F]

namespace Blake

open Sha (at_ at_rel forall2_snoc)

theorem set_rel {D : Rel} {v : List UInt32G} {V : List (BitVec 32)} (h : List.Forall₂ D.W v V)
    (i : Nat) {u : UInt32G} {x : BitVec 32} (hu : D.W u x) :
    List.Forall₂ D.W (v.set i u) (V.set i x) := by
  induction h generalizing i with
  | nil => exact .nil
  | cons h h' ih =>
    cases i with
    | zero => exact .cons hu h'
    | succ i => exact .cons h (ih i)

theorem add2_impl {cap : Nat} (hcap : CapOK F cap) (h63 : 63 ≤ cap) (u v : UInt32G)
    (x y : BitVec 32) :
    ImplM (fun D => D.W u x ∧ D.W v y) (UInt32G.addmany cap [u, v] : MSynth F UInt32G)
      (fun D r => D.W r (x + y)) :=
  (addmany_impl hcap h63 [u, v] [x, y]).weaken
    (fun D _ h => ⟨.cons h.1 (.cons h.2 .nil), by simp, by simp⟩)
    fun D r _ _ h => by simpa [wordSum] using h

theorem add3_impl {cap : Nat} (hcap : CapOK F cap) (h63 : 63 ≤ cap) (u v t : UInt32G)
    (x y z : BitVec 32) :
    ImplM (fun D => D.W u x ∧ D.W v y ∧ D.W t z) (UInt32G.addmany cap [u, v, t] : MSynth F UInt32G)
      (fun D r => D.W r (x + y + z)) :=
  (addmany_impl hcap h63 [u, v, t] [x, y, z]).weaken
    (fun D _ h => ⟨.cons h.1 (.cons h.2.1 (.cons h.2.2 .nil)), by simp, by simp⟩)
    fun D r _ _ h => by
      have e : wordSum [x, y, z] = x + y + z := by simp [wordSum, BitVec.add_assoc]
      rw [← e]; exact h

theorem mixingG_impl {cap : Nat} (hcap : CapOK F cap) (h63 : 63 ≤ cap) (v : List UInt32G)
    (V : List (BitVec 32)) (a b c d : Nat) (x y : UInt32G) (X Y : BitVec 32) :
    ImplM (fun D => List.Forall₂ D.W v V ∧ D.W x X ∧ D.W y Y)
      (mixingG cap v a b c d x y : MSynth F (List UInt32G))
      (fun D v' => List.Forall₂ D.W v' (Blake2s.G V a b c d X Y)) := by
  unfold mixingG Blake2s.G
  have hat : ∀ {D : Rel}, D.Good → ∀ {v : List UInt32G} {V : List (BitVec 32)},
      List.Forall₂ D.W v V → ∀ i, D.W (at_ v i) (Blake2s.get V i) := fun hD _ _ h i => at_rel hD h i
  extract_lets V1 V2 V3 V4 V5 V6 V7
  -- after each step: the updated vector and the two message words
  have fin : ∀ (P : Rel → Prop) [Mono P] (v7 : List UInt32G),
      (∀ D : Rel, D.Good → P D → List.Forall₂ D.W v7 V7) →
      ImplM P (do
        let vb ← MSynth.lift ((at_ v7 b).xor (at_ v7 c))
        return v7.set b (vb.rotr R4) : MSynth F (List UInt32G))
        (fun D v' => List.Forall₂ D.W v' (V7.set b
          ((Blake2s.get V7 b ^^^ Blake2s.get V7 c).rotateRight 7))) := by
    intro P _ v7 hP
    refine ImplM.bind ((ImplM.lift (xor_impl _ _ _ _)).pre fun D hD h =>
      ⟨hat hD (hP D hD h) b, hat hD (hP D hD h) c⟩) fun vb => ?_
    exact ImplM.pure fun D hD h => set_rel (hP D hD h.1) b (hD.rotr _ _ 7 h.2)
  refine ImplM.bind ((add3_impl hcap h63 _ _ _ _ _ _).pre fun D hD h =>
    ⟨hat hD h.1 a, hat hD h.1 b, h.2.1⟩) fun va => ?_
  refine ImplM.bind ((ImplM.lift (xor_impl _ _ (Blake2s.get V1 d) (Blake2s.get V1 a))).pre
    fun D hD h => ?_) fun vd => ?_
  · have h1 : List.Forall₂ D.W (v.set a va) V1 := set_rel h.1.1 a h.2
    exact ⟨hat hD h1 d, hat hD h1 a⟩
  refine ImplM.bind ((add2_impl hcap h63 _ _ (Blake2s.get V2 c) (Blake2s.get V2 d)).pre
    fun D hD h => ?_) fun vc => ?_
  · have h1 : List.Forall₂ D.W (v.set a va) V1 := set_rel h.1.1.1 a h.1.2
    have h2 : List.Forall₂ D.W ((v.set a va).set d (vd.rotr R1)) V2 :=
      set_rel h1 d (hD.rotr _ _ 16 h.2)
    exact ⟨hat hD h2 c, hat hD h2 d⟩
  refine ImplM.bind ((ImplM.lift (xor_impl _ _ (Blake2s.get V3 b) (Blake2s.get V3 c))).pre
    fun D hD h => ?_) fun vb => ?_
  · have h1 : List.Forall₂ D.W (v.set a va) V1 := set_rel h.1.1.1.1 a h.1.1.2
    have h2 : List.Forall₂ D.W ((v.set a va).set d (vd.rotr R1)) V2 :=
      set_rel h1 d (hD.rotr _ _ 16 h.1.2)
    have h3 : List.Forall₂ D.W (((v.set a va).set d (vd.rotr R1)).set c vc) V3 := set_rel h2 c h.2
    exact ⟨hat hD h3 b, hat hD h3 c⟩
  -- collapse: keep only the vector after four steps
  generalize hv4 : (((v.set a va).set d (vd.rotr R1)).set c vc).set b (vb.rotr R2) = v4
  have second : ∀ v4 : List UInt32G, ImplM (fun D => List.Forall₂ D.W v4 V4 ∧ D.W y Y)
      (do
        let va ← UInt32G.addmany cap [at_ v4 a, at_ v4 b, y]
        let v := v4.set a va
        let vd ← MSynth.lift ((at_ v d).xor (at_ v a))
        let v := v.set d (vd.rotr R3)
        let vc ← UInt32G.addmany cap [at_ v c, at_ v d]
        let v := v.set c vc
        let vb ← MSynth.lift ((at_ v b).xor (at_ v c))
        return v.set b (vb.rotr R4) : MSynth F (List UInt32G))
      (fun D v' => List.Forall₂ D.W v' (V7.set b
          ((Blake2s.get V7 b ^^^ Blake2s.get V7 c).rotateRight 7))) := by
    intro v4
    refine ImplM.bind ((add3_impl hcap h63 _ _ _ (Blake2s.get V4 a) (Blake2s.get V4 b) Y).pre
      fun D hD h => ⟨hat hD h.1 a, hat hD h.1 b, h.2⟩) fun va' => ?_
    refine ImplM.bind ((ImplM.lift (xor_impl _ _ (Blake2s.get V5 d) (Blake2s.get V5 a))).pre
      fun D hD h => ?_) fun vd' => ?_
    · have h1 : List.Forall₂ D.W (v4.set a va') V5 := set_rel h.1.1 a h.2
      exact ⟨hat hD h1 d, hat hD h1 a⟩
    refine ImplM.bind ((add2_impl hcap h63 _ _ (Blake2s.get V6 c) (Blake2s.get V6 d)).pre
      fun D hD h => ?_) fun vc' => ?_
    · have h1 : List.Forall₂ D.W (v4.set a va') V5 := set_rel h.1.1.1 a h.1.2
      have h2 : List.Forall₂ D.W ((v4.set a va').set d (vd'.rotr R3)) V6 :=
        set_rel h1 d (hD.rotr _ _ 8 h.2)
      exact ⟨hat hD h2 c, hat hD h2 d⟩
    refine fin _ _ fun D hD h => ?_
    have h1 : List.Forall₂ D.W (v4.set a va') V5 := set_rel h.1.1.1.1 a h.1.1.2
    have h2 : List.Forall₂ D.W ((v4.set a va').set d (vd'.rotr R3)) V6 :=
      set_rel h1 d (hD.rotr _ _ 8 h.1.2)
    exact set_rel h2 c h.2
  refine (second v4).pre fun D hD h => ?_
  subst hv4
  refine ⟨?_, h.1.1.1.1.2.2⟩
  have h1 : List.Forall₂ D.W (v.set a va) V1 := set_rel h.1.1.1.1.1 a h.1.1.1.2
  have h2 : List.Forall₂ D.W ((v.set a va).set d (vd.rotr R1)) V2 :=
    set_rel h1 d (hD.rotr _ _ 16 h.1.1.2)
  have h3 : List.Forall₂ D.W (((v.set a va).set d (vd.rotr R1)).set c vc) V3 := set_rel h2 c h.1.2
  exact set_rel h3 b (hD.rotr _ _ 12 h.2)

theorem SIGMA_eq : SIGMA = Blake2s.SIGMA := rfl

theorem round_impl {cap : Nat} (hcap : CapOK F cap) (h63 : 63 ≤ cap) (m v : List UInt32G)
    (M V : List (BitVec 32)) (i : Nat) :
    ImplM (fun D => List.Forall₂ D.W m M ∧ List.Forall₂ D.W v V)
      (round cap m v i : MSynth F (List UInt32G))
      (fun D v' => List.Forall₂ D.W v' (Blake2s.round M V i)) := by
  unfold round Blake2s.round
  rw [SIGMA_eq]
  extract_lets s w w' V1 V2 V3 V4 V5 V6 V7
  have hw : ∀ {D : Rel}, D.Good → List.Forall₂ D.W m M → ∀ j, D.W (w j) (w' j) :=
    fun hD h j => at_rel hD h _
  have step : ∀ (P : Rel → Prop) (v : List UInt32G) (V : List (BitVec 32)) (a b c d i j : Nat),
      (∀ D : Rel, D.Good → P D → List.Forall₂ D.W m M ∧ List.Forall₂ D.W v V) →
      ImplM P (mixingG cap v a b c d (w i) (w j) : MSynth F (List UInt32G))
        (fun D v' => List.Forall₂ D.W v' (Blake2s.G V a b c d (w' i) (w' j))) := by
    intro P v V a b c d i j hP
    exact (mixingG_impl hcap h63 v V a b c d _ _ _ _).pre fun D hD h =>
      ⟨(hP D hD h).2, hw hD (hP D hD h).1 i, hw hD (hP D hD h).1 j⟩
  refine ImplM.bind (step _ v V 0 4 8 12 0 1 fun D _ h => h) fun v1 => ?_
  refine ImplM.bind (step _ v1 V1 1 5 9 13 2 3 fun D _ h => ⟨h.1.1, h.2⟩) fun v2 => ?_
  refine ImplM.bind (step _ v2 V2 2 6 10 14 4 5 fun D _ h => ⟨h.1.1.1, h.2⟩) fun v3 => ?_
  refine ImplM.bind (step _ v3 V3 3 7 11 15 6 7 fun D _ h => ⟨h.1.1.1.1, h.2⟩) fun v4 => ?_
  refine ImplM.bind (step _ v4 V4 0 5 10 15 8 9 fun D _ h => ⟨h.1.1.1.1.1, h.2⟩) fun v5 => ?_
  refine ImplM.bind (step _ v5 V5 1 6 11 12 10 11 fun D _ h => ⟨h.1.1.1.1.1.1, h.2⟩) fun v6 => ?_
  refine ImplM.bind (step _ v6 V6 2 7 8 13 12 13 fun D _ h => ⟨h.1.1.1.1.1.1.1, h.2⟩) fun v7 => ?_
  exact step _ v7 V7 3 4 9 14 14 15 fun D _ h => ⟨h.1.1.1.1.1.1.1.1, h.2⟩

theorem ivWords_rel {D : Rel} (hD : D.Good) : List.Forall₂ D.W ivWords Blake2s.IV := by
  have e : Blake2s.IV = [0x6A09E667#32, 0xBB67AE85#32, 0x3C6EF372#32, 0xA54FF53A#32,
   0x510E527F#32, 0x9B05688C#32, 0x1F83D9AB#32, 0x5BE0CD19#32] := by decide +kernel
  rw [e]
  unfold ivWords
  simp only [List.map_cons, List.map_nil]
  repeat' first | exact .nil | refine .cons (hD.const _) ?_

theorem foldl_snoc {α β : Type} (f : α → β) (l : List α) (acc : List β) :
    l.foldl (fun acc i => acc ++ [f i]) acc = acc ++ l.map f := by
  induction l generalizing acc with
  | nil => simp
  | cons a l ih => simp [ih]

theorem outputStep_impl (h v acc : List UInt32G) (H V Acc : List (BitVec 32)) (i : Nat) :
    Impl (fun D => (List.Forall₂ D.W h H ∧ List.Forall₂ D.W v V) ∧ List.Forall₂ D.W acc Acc)
      (outputStep h v acc i : Synth F (List UInt32G))
      (fun D r => List.Forall₂ D.W r
        (Acc ++ [Blake2s.get H i ^^^ Blake2s.get V i ^^^ Blake2s.get V (i + 8)])) := by
  unfold outputStep
  refine Impl.bind ((xor_impl _ _ (Blake2s.get H i) (Blake2s.get V i)).pre fun D hD h =>
    ⟨at_rel hD h.1.1 i, at_rel hD h.1.2 i⟩) fun a => ?_
  refine Impl.bind ((xor_impl _ _ _ (Blake2s.get V (i + 8))).pre fun D hD h =>
    ⟨h.2, at_rel hD h.1.1.2 (i + 8)⟩) fun b => ?_
  exact Impl.pure fun D hD h => forall2_snoc h.1.1.2 h.2

theorem compression_impl {cap : Nat} (hcap : CapOK F cap) (h63 : 63 ≤ cap) (h m : List UInt32G)
    (H M : List (BitVec 32)) (t : Nat) (f : Bool) :
    Impl (fun D => (List.Forall₂ D.W h H ∧ H.length = 8) ∧ List.Forall₂ D.W m M ∧ M.length = 16)
      (compression cap h m t f : Synth F (List UInt32G))
      (fun D r => List.Forall₂ D.W r (Blake2s.compress H M t f)) := by
  unfold compression
  by_cases hl : h.length = 8 ∧ m.length = 16
  swap
  · rw [if_neg hl]
    exact Impl.panic fun D _ h => hl ⟨h.1.1.length_eq.trans h.1.2, h.2.1.length_eq.trans h.2.2⟩
  rw [if_pos hl]
  unfold Blake2s.compress
  have et : BitVec.ofNat 32 (t % 2 ^ 32) = BitVec.ofNat 32 t := by
    apply BitVec.eq_of_toNat_eq; simp
  have et' : t / 2 ^ 32 = t >>> 32 := by rw [Nat.shiftRight_eq_div_pow]
  rw [et, et']
  extract_lets v0 jp V0 V1 V2 V3 V4
  have hjp : ∀ (P : Rel → Prop) [Mono P] (v : List UInt32G),
      (∀ D : Rel, D.Good → P D → List.Forall₂ D.W v V3 ∧ List.Forall₂ D.W h H ∧
        List.Forall₂ D.W m M) →
      Impl P (jp v) (fun D r => List.Forall₂ D.W r
        ((List.range 8).map fun i => Blake2s.get H i ^^^ Blake2s.get V4 i ^^^
          Blake2s.get V4 (i + 8))) := by
    intro P _ v hP
    refine Impl.bind (R := fun D v => List.Forall₂ D.W v V4) (Impl.scoped'
      ((ImplM.foldlM (Pre := fun D => List.Forall₂ D.W m M)
        (Rs := fun D s t => List.Forall₂ D.W s t) (g := Blake2s.round M) (List.range 10)
        (fun i _ s t => round_impl hcap h63 m s M t i) v V3).pre fun D hD h =>
          ⟨(hP D hD h).2.2, (hP D hD h).1⟩)) fun v' => ?_
    have hm := foldl_snoc (fun i => Blake2s.get H i ^^^ Blake2s.get V4 i ^^^ Blake2s.get V4 (i + 8))
      (List.range 8) []
    rw [List.nil_append] at hm
    rw [← hm]
    exact (Impl.foldlM (Pre := fun D => List.Forall₂ D.W h H ∧ List.Forall₂ D.W v' V4)
      (Ri := fun _ i j => i = j) (Rs := fun D s t => List.Forall₂ D.W s t)
      (f := outputStep h v') (List.range 8) (List.range 8) rfl
      (fun i _ j _ s t => by
        by_cases hij : i = j
        · subst hij
          exact (outputStep_impl h v' s H V4 t i).pre fun D hD h => ⟨h.1, h.2.2⟩
        · exact (outputStep_impl h v' s H V4 t i).weaken (fun D hD h => (hij h.2.1).elim)
            fun D _ _ h => (hij h.2.1).elim) [] []).pre
      fun D hD h => ⟨⟨(hP D hD h.1).2.1, h.2⟩, List.forall₂_same.mpr fun _ _ => rfl, .nil⟩
  refine Impl.bind ((xor_impl (at_ v0 12) _ (Blake2s.get V0 12) _).pre fun D hD h =>
    ⟨at_rel hD (List.rel_append h.1.1 (ivWords_rel hD)) 12, hD.const _⟩) fun v12 => ?_
  refine Impl.bind ((xor_impl _ _ (Blake2s.get V1 13) _).pre fun D hD h =>
    ⟨at_rel hD (set_rel (List.rel_append h.1.1.1 (ivWords_rel hD)) 12 h.2) 13, hD.const _⟩)
    fun v13 => ?_
  cases f with
  | false =>
    exact hjp _ _ fun D hD h =>
      ⟨set_rel (set_rel (List.rel_append h.1.1.1.1 (ivWords_rel hD)) 12 h.1.2) 13 h.2,
        h.1.1.1.1, h.1.1.2.1⟩
  | true =>
    simp only [if_true]
    refine Impl.bind ((xor_impl _ _ (Blake2s.get V2 14) _).pre fun D hD h =>
      ⟨at_rel hD (set_rel (set_rel (List.rel_append h.1.1.1.1 (ivWords_rel hD)) 12 h.1.2) 13 h.2)
        14, hD.const _⟩) fun v14 => ?_
    exact hjp _ _ fun D hD h =>
      ⟨set_rel (set_rel (set_rel (List.rel_append h.1.1.1.1.1 (ivWords_rel hD)) 12 h.1.1.2) 13
        h.1.2) 14 h.2, h.1.1.1.1.1, h.1.1.1.2.1⟩

theorem Impl.bind_pure {α β : Type} {Pre : Rel → Prop} {a : α} {f : α → Synth F β}
    {Q : Rel → β → Prop} (h : Impl Pre (f a) Q) : Impl Pre (Pure.pure a >>= f) Q := h

/-! ### Block parsing -/

theorem parseWord_rel {D : Rel} (hD : D.Good) {c : List Boolean} {b : List Bool}
    (h : List.Forall₂ D.B c b) (hl : c.length ≤ 32) {u : UInt32G} (hu : parseWord c = some u) :
    D.W u (wordLE (b ++ List.replicate (32 - b.length) false)) := by
  refine hD.fromBits _ _ _ hu ?_
  rw [bitsLE_wordLE (by have := h.length_eq; simp; omega), h.length_eq]
  refine List.rel_append h ?_
  have := Sha.forall2_constants hD (List.replicate (32 - b.length) false)
  simpa using this

theorem parseWord_exists {c : List Boolean} (hl : c.length ≤ 32) : ∃ u, parseWord c = some u :=
  fromBits_exists (by simp; omega)

theorem chunks_le {α : Type} (n : Nat) (l : List α) : ∀ c ∈ chunks n l, c.length ≤ n := by
  by_cases hn : n = 0
  · unfold chunks; simp [hn]
  induction hk : l.length using Nat.strong_induction_on generalizing l with
  | _ k ih =>
    by_cases hl : l = []
    · subst hl; rw [chunks_nil]; simp
    · rw [chunks_cons hn hl]
      have hpos : 0 < l.length := List.length_pos_iff.mpr hl
      intro c hc
      rcases List.mem_cons.mp hc with rfl | hc
      · simp
      · exact ih (l.drop n).length (by simp; omega) _ rfl c hc

theorem parseWords_rel {D : Rel} (hD : D.Good) (n : Nat) {c : List Boolean} {b : List Bool}
    (h : List.Forall₂ D.B c b) (hl : c.length ≤ 32 * n) {ws : List UInt32G}
    (hws : (chunks 32 c).mapM parseWord = some ws) :
    List.Forall₂ D.W (ws ++ List.replicate (n - ws.length) (UInt32G.constant 0))
      ((chunks 32 (b ++ List.replicate (32 * n - b.length) false)).map wordLE) := by
  induction n generalizing c b ws with
  | zero =>
    obtain rfl : c = [] := List.length_eq_zero_iff.mp (by omega)
    obtain rfl := List.forall₂_nil_left_iff.mp h
    rw [chunks_nil] at hws
    obtain rfl : ws = [] := by simpa using hws.symm
    simp [chunks_nil]
  | succ n ih =>
    have hne : b ++ List.replicate (32 * (n + 1) - b.length) false ≠ [] := by
      intro e
      have := congrArg List.length e
      simp at this
      have := this.1
      subst this
      simp at e
    rw [chunks_cons (by omega) hne]
    have hlb : b.length ≤ 32 * (n + 1) := by rw [← h.length_eq]; exact hl
    have ht : (b ++ List.replicate (32 * (n + 1) - b.length) false).take 32 =
        b.take 32 ++ List.replicate (32 - (b.take 32).length) false := by
      rw [List.take_append, List.take_replicate]
      congr 2
      simp only [List.length_take]; omega
    have hd : (b ++ List.replicate (32 * (n + 1) - b.length) false).drop 32 =
        b.drop 32 ++ List.replicate (32 * n - (b.drop 32).length) false := by
      rw [List.drop_append, List.drop_replicate]
      congr 2
      simp only [List.length_drop]; omega
    rw [ht, hd, List.map_cons]
    by_cases hc : c = []
    · subst hc
      obtain rfl := List.forall₂_nil_left_iff.mp h
      rw [chunks_nil] at hws
      obtain rfl : ws = [] := by simpa using hws.symm
      have := ih (c := []) (b := []) (ws := []) .nil (by simp) (by simp [chunks_nil])
      simp only [List.nil_append, List.length_nil, Nat.sub_zero, List.drop_nil, List.take_nil] at this ⊢
      rw [List.replicate_succ]
      refine .cons ?_ this
      have e0 : wordLE (List.replicate 32 false) = 0#32 := by decide
      rw [e0]; exact hD.const 0
    · rw [chunks_cons (by omega) hc] at hws
      rw [mapM_some] at hws
      cases hws with
      | @cons _ u _ us h1 h2 =>
        simp only [List.cons_append, List.length_cons, Nat.add_sub_add_right]
        refine .cons (parseWord_rel hD (List.forall₂_take 32 h) (by simp) h1) ?_
        exact ih (List.forall₂_drop 32 h) (by simp; omega) (mapM_some.mpr h2)

theorem parseWords_length {c : List Boolean} {ws : List UInt32G}
    (hws : (chunks 32 c).mapM parseWord = some ws) : ws.length = (chunks 32 c).length :=
  (mapM_some.mp hws).length_eq.symm

theorem parseBlock_rel {D : Rel} (hD : D.Good) {c : List Boolean} {b : List Bool}
    (h : List.Forall₂ D.B c b) (hl : c.length ≤ 512) {ws : List UInt32G}
    (hws : parseBlock c = some ws) :
    List.Forall₂ D.W ws ((chunks 32 (b ++ List.replicate (512 - b.length) false)).map wordLE) := by
  unfold parseBlock at hws
  rw [Option.map_eq_some_iff] at hws
  obtain ⟨us, hus, rfl⟩ := hws
  exact parseWords_rel hD 16 h (by omega) hus

theorem parseBlock_exists (c : List Boolean) : ∃ ws, parseBlock c = some ws := by
  obtain ⟨ws, hws⟩ := exists_mapM (f := parseWord) (l := chunks 32 c)
    fun a ha => parseWord_exists (chunks_le 32 c a ha)
  exact ⟨_, by unfold parseBlock; rw [hws]; rfl⟩

theorem length_chunks_of_dvd {α : Type} {n : Nat} (hn : n ≠ 0) {l : List α} (k : Nat)
    (h : l.length = n * k) : (chunks n l).length = k := by
  induction k generalizing l with
  | zero =>
    obtain rfl : l = [] := List.length_eq_zero_iff.mp (by omega)
    simp [chunks_nil]
  | succ k ih =>
    have hl : l ≠ [] := by
      rintro rfl
      have : 0 < n * (k + 1) := Nat.mul_pos (by omega) (by omega)
      simp at h; omega
    rw [chunks_cons hn hl, List.length_cons, ih]
    rw [List.length_drop, h, Nat.mul_succ]; omega

theorem specBlock_length {b : List Bool} (h : b.length ≤ 512) :
    ((chunks 32 (b ++ List.replicate (512 - b.length) false)).map wordLE).length = 16 := by
  rw [List.length_map]
  exact length_chunks_of_dvd (by omega) 16 (by simp; omega)

theorem getD_rel {D : Rel} {l : List (List UInt32G)} {l' : List (List (BitVec 32))}
    (h : List.Forall₂ (List.Forall₂ D.W) l l') (i : Nat) :
    List.Forall₂ D.W (l.getD i []) (l'.getD i []) := by
  induction h generalizing i with
  | nil => simp
  | cons h _ ih =>
    cases i with
    | zero => exact h
    | succ i => simpa using ih i

theorem blocks_length16 (msg : List Bool) : ∀ b ∈ Blake2s.blocks msg, b.length = 16 := by
  intro b hb
  unfold Blake2s.blocks at hb
  rw [List.mem_map] at hb
  obtain ⟨c, hc, rfl⟩ := hb
  refine specBlock_length ?_
  split at hc
  · rw [List.mem_singleton] at hc; subst hc; exact Nat.zero_le _
  · exact chunks_le _ _ _ hc

theorem blocks_ne (msg : List Bool) : Blake2s.blocks msg ≠ [] := by
  unfold Blake2s.blocks
  by_cases h : msg = []
  · rw [if_pos h, List.map_cons]; exact List.cons_ne_nil _ _
  · rw [if_neg h, chunks_cons (by omega) h]; simp

theorem compress_length (H M : List (BitVec 32)) (t : Nat) (f : Bool) :
    (Blake2s.compress H M t f).length = 8 := by
  unfold Blake2s.compress; simp

theorem init_rel {D : Rel} (hD : D.Good) (pers : List (BitVec 8)) :
    List.Forall₂ D.W [UInt32G.constant (0x6A09E667#32 ^^^ 0x01010000#32 ^^^ 32#32),
      UInt32G.constant 0xBB67AE85#32, UInt32G.constant 0x3C6EF372#32,
      UInt32G.constant 0xA54FF53A#32, UInt32G.constant 0x510E527F#32,
      UInt32G.constant 0x9B05688C#32,
      UInt32G.constant (0x1F83D9AB#32 ^^^ Blake2s.leWord (pers.take 4)),
      UInt32G.constant (0x5BE0CD19#32 ^^^ Blake2s.leWord ((pers.drop 4).take 4))]
      (Blake2s.init pers) := by
  have e : Blake2s.IV = [0x6A09E667#32, 0xBB67AE85#32, 0x3C6EF372#32, 0xA54FF53A#32,
   0x510E527F#32, 0x9B05688C#32, 0x1F83D9AB#32, 0x5BE0CD19#32] := by decide +kernel
  unfold Blake2s.init
  rw [e]
  exact .cons (hD.const _) (.cons (hD.const _) (.cons (hD.const _) (.cons (hD.const _)
    (.cons (hD.const _) (.cons (hD.const _) (.cons (hD.const _) (.cons (hD.const _) .nil)))))))

theorem toBits_rel {D : Rel} (hD : D.Good) {l : List UInt32G} {xs : List (BitVec 32)}
    (h : List.Forall₂ D.W l xs) :
    List.Forall₂ D.B (l.flatMap UInt32G.intoBits) (xs.flatMap bitsLE) := by
  induction h with
  | nil => exact .nil
  | cons h _ ih =>
    simp only [List.flatMap_cons]
    exact List.rel_append (hD.toBits _ _ h) ih

instance (l : List (List UInt32G)) (l' : List (List (BitVec 32))) :
    Mono fun D => List.Forall₂ (List.Forall₂ D.W) l l' :=
  ⟨fun _ _ h hp => hp.imp fun _ _ hq => hq.imp h.2⟩

theorem blocks_rel {D : Rel} (hD : D.Good) {input : List Boolean} {msg : List Bool}
    (h : List.Forall₂ D.B input msg) {bl : List (List UInt32G)}
    (hbl : (chunks 512 input).mapM parseBlock = some bl) :
    List.Forall₂ (List.Forall₂ D.W)
      (if bl.isEmpty then [List.replicate 16 (UInt32G.constant 0)] else bl)
      (Blake2s.blocks msg) := by
  by_cases hi : input = []
  · subst hi
    obtain rfl := List.forall₂_nil_left_iff.mp h
    rw [chunks_nil] at hbl
    obtain rfl : bl = [] := by simpa using hbl.symm
    have := parseWords_rel hD 16 (c := []) (b := []) .nil (by simp) (ws := []) (by simp [chunks_nil])
    exact .cons this .nil
  · have hm : msg ≠ [] := by
      rintro rfl
      exact hi (List.forall₂_nil_right_iff.mp h)
    rw [mapM_some] at hbl
    have hb : bl ≠ [] := by
      rintro rfl
      have := List.forall₂_nil_right_iff.mp hbl
      rw [chunks_cons (by omega) hi] at this
      simp at this
    rw [if_neg (by simpa using hb)]
    unfold Blake2s.blocks
    rw [if_neg hm, List.forall₂_map_right_iff]
    have hc := forall2_chunks 512 h
    have hle := chunks_le 512 input
    revert hc hle hbl
    generalize chunks 512 input = l
    generalize chunks 512 msg = l'
    intro hbl hc hle
    clear hb
    induction hc generalizing bl with
    | nil =>
      obtain rfl := List.forall₂_nil_left_iff.mp hbl
      exact .nil
    | cons h1 _ ih =>
      cases hbl with
      | cons g1 g2 =>
        exact .cons (parseBlock_rel hD h1 (hle _ List.mem_cons_self) g1)
          (ih g2 fun c hc => hle c (List.mem_cons_of_mem _ hc))

theorem getD_mem {α : Type} {l : List α} {i : Nat} (h : i < l.length) (d : α) : l.getD i d ∈ l := by
  rw [List.getD_eq_getElem _ _ h]; exact List.getElem_mem h

theorem parsed_length {input : List Boolean} {msg : List Bool} (h : input.length = msg.length)
    {bl : List (List UInt32G)} (hbl : (chunks 512 input).mapM parseBlock = some bl) :
    (if bl.isEmpty then [List.replicate 16 (UInt32G.constant 0)] else bl).length =
      (Blake2s.blocks msg).length := by
  have hc : (chunks 512 input).length = (chunks 512 msg).length :=
    (forall2_chunks 512 (R := fun _ _ => True)
      (List.forall₂_iff_get.mpr ⟨h, fun _ _ _ => trivial⟩)).length_eq
  have hl := (mapM_some.mp hbl).length_eq
  unfold Blake2s.blocks
  rw [List.length_map]
  by_cases hm : msg = []
  · subst hm
    obtain rfl : input = [] := List.length_eq_zero_iff.mp h
    rw [chunks_nil] at hbl
    obtain rfl : bl = [] := by simpa using hbl.symm
    rfl
  · rw [if_neg hm]
    have : (chunks 512 msg).length ≠ 0 := by rw [chunks_cons (by omega) hm]; simp
    rw [if_neg (by rw [List.isEmpty_iff, ← List.length_eq_zero_iff]; omega)]
    omega

theorem blake2s_impl {cap : Nat} (hcap : CapOK F cap) (h63 : 63 ≤ cap) (input : List Boolean)
    (pers : List (BitVec 8)) (msg : List Bool) (hlen : input.length = msg.length)
    (h8 : input.length % 8 = 0) (hp : pers.length = 8) :
    Impl (fun D => List.Forall₂ D.B input msg) (blake2s cap input pers : Synth F (List Boolean))
      (fun D out => List.Forall₂ D.B out (Blake2s.hash msg pers)) := by
  unfold blake2s
  rw [if_pos ⟨hp, h8⟩]
  obtain ⟨bl, hbl⟩ := exists_mapM (f := parseBlock) (l := chunks 512 input)
    fun c _ => parseBlock_exists c
  rw [hbl]
  refine Impl.bind_pure ?_
  extract_lets bl'
  have hrel : ∀ D : Rel, D.Good → List.Forall₂ D.B input msg →
      List.Forall₂ (List.Forall₂ D.W) bl' (Blake2s.blocks msg) := fun D hD h => blocks_rel hD h hbl
  have hbll : bl'.length = (Blake2s.blocks msg).length := by
    exact parsed_length hlen hbl
  unfold Blake2s.hash
  rw [← hlen]
  extract_lets d H
  have h16 : ∀ i < d.length, (d.getD i []).length = 16 := fun i hi =>
    blocks_length16 msg _ (getD_mem hi _)
  have hpos : 0 < d.length := List.length_pos_iff.mpr (blocks_ne msg)
  have hH : H.length = 8 := by
    show List.length (List.foldl _ _ _) = 8
    generalize List.range (d.length - 1) = l
    have h0 : (Blake2s.init pers).length = 8 := rfl
    revert h0
    generalize Blake2s.init pers = x
    induction l generalizing x with
    | nil => exact id
    | cons i l ih => intro h; exact ih _ (compress_length _ _ _ _)
  refine Impl.bind (R := fun D h => List.Forall₂ D.W h H) ?_ fun h => ?_
  · rw [hbll]
    refine ((Impl.foldlM (Pre := fun D => List.Forall₂ (List.Forall₂ D.W) bl' d)
      (Ri := fun _ i j => i = j) (Rs := fun D s t => List.Forall₂ D.W s t ∧ t.length = 8)
      (g := fun h i => Blake2s.compress h (d.getD i []) ((i + 1) * 64) false)
      (f := fun h i => compression cap h (bl'.getD i []) ((i + 1) * 64) false)
      (List.range (d.length - 1)) (List.range (d.length - 1)) rfl
      (fun i hi j _ s t => ?_) _ (Blake2s.init pers)).weaken
        (fun D hD h => ⟨hrel D hD h, List.forall₂_same.mpr fun _ _ => rfl, init_rel hD pers, rfl⟩)
        fun D _ _ _ h => h.1)
    have hi' : i < d.length := by have := List.mem_range.mp hi; omega
    by_cases hij : i = j
    · subst hij
      exact (compression_impl hcap h63 s (bl'.getD i []) t (d.getD i []) _ false).weaken
        (fun D hD h => ⟨h.2.2, getD_rel h.1 i, h16 i hi'⟩)
        fun D _ _ _ h => ⟨h, compress_length _ _ _ _⟩
    · exact (compression_impl hcap h63 s (bl'.getD i []) t (d.getD i []) _ false).weaken
        (fun D hD h => (hij h.2.1).elim) fun D _ _ h => (hij h.2.1).elim
  · refine Impl.bind ((compression_impl hcap h63 h (bl'.getD (bl'.length - 1) []) H
      (d.getD (d.length - 1) []) (input.length / 8) true).pre fun D hD h =>
        ⟨⟨h.2, hH⟩, ?_, h16 _ (by omega)⟩) fun out => ?_
    · rw [hbll]; exact getD_rel (hrel D hD h.1) _
    · exact Impl.pure fun D hD h => toBits_rel hD h.2

end Blake
end Zkp
