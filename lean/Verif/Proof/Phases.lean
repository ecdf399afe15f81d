/- Runs of a verifier in phases: bad challenges that depend on everything said in the earlier phases. -/
import Verif.Proof.HidingSound
import Verif.Proof.Interactive

namespace Zkp.Sc

open Zkp.Ml Zkp.Spartan

set_option linter.unusedSectionVars false
set_option linter.unusedSimpArgs false

variable {F : Type} [Field F] {G : Type} [AddCommGroup G] [Module F G] [DecidableEq F] [DecidableEq G]

/-! ### Cutting a transcript at a challenge -/

/-- The messages up to challenge number `n`, included. -/
def upTo : Nat → Transcript F G → Transcript F G
  | 0, _ => []
  | _ + 1, [] => []
  | n + 1, .chal l :: t => .chal l :: upTo n t
  | n + 1, m :: t => m :: upTo (n + 1) t

/-- The messages after challenge number `n`. -/
def past : Nat → Transcript F G → Transcript F G
  | 0, t => t
  | _ + 1, [] => []
  | n + 1, .chal _ :: t => past n t
  | n + 1, _ :: t => past (n + 1) t

/-- The messages end with challenge number `n`. -/
def Ends (n : Nat) (a : Transcript F G) : Prop := ∀ r, upTo n (a ++ r) = a ∧ past n (a ++ r) = r

theorem Ends.nil : Ends 0 ([] : Transcript F G) := fun r => by simp [upTo, past]

theorem Ends.chal {n : Nat} {a : Transcript F G} (h : Ends n a) (l : String) : Ends (n + 1) (.chal l :: a) := fun r => by
  simp [upTo, past, h r]

/-- Not a challenge. -/
def Plain : Msg F G → Prop
  | .chal _ => False
  | _ => True

theorem Ends.plain {n : Nat} {a : Transcript F G} (h : Ends (n + 1) a) {m : Msg F G} (hm : Plain m) : Ends (n + 1) (m :: a) := by
  intro r
  cases m <;> first | exact absurd hm id | simp [upTo, past, h r]

theorem upTo_append (n m : Nat) (t : Transcript F G) : upTo (n + m) t = upTo n t ++ upTo m (past n t) ∧
    past (n + m) t = past m (past n t) := by
  induction t generalizing n with
  | nil => cases n <;> cases m <;> simp [upTo, past]
  | cons x t ih =>
    cases n with
    | zero => simp [upTo, past]
    | succ n =>
      have e : n + 1 + m = (n + m) + 1 := by omega
      cases x with
      | chal l => rw [e]; simp [upTo, past, ih n]
      | _ =>
        have := ih (n + 1)
        rw [e] at this ⊢
        simp [upTo, past, this]

theorem Ends.append {n m : Nat} {a b : Transcript F G} (h : Ends n a) (h' : Ends m b) : Ends (n + m) (a ++ b) := by
  intro r
  rw [List.append_assoc, (upTo_append n m _).1, (upTo_append n m _).2, (h _).1, (h _).2]
  exact ⟨by rw [(h' _).1], (h' _).2⟩

theorem Ends.last (a : Transcript F G) (l : String) : Ends (numChal a + 1) (a ++ [.chal l]) := by
  induction a with
  | nil => exact Ends.nil.chal l
  | cons m a ih =>
    cases m with
    | chal l' => exact ih.chal l'
    | _ => exact ih.plain trivial

theorem numChal_plain (a : Transcript F G) (h : ∀ m ∈ a, Plain m) : numChal a = 0 := by
  induction a with
  | nil => rfl
  | cons m a ih =>
    have := h m (by simp)
    cases m <;> first | exact absurd this id | exact ih fun x hx => h x (by simp [hx])

theorem drawn_len (ch : Oracle F G) (t : Transcript F G) : (drawn ch t).length = numChal t := by
  induction t using List.reverseRecOn with
  | nil => rfl
  | append_singleton t m ih =>
    unfold drawn at ih ⊢
    rw [drawnFrom_append, List.length_append, ih, numChal_append]
    cases m <;> simp [drawnFrom, numChal]

theorem drawn_plain (ch : Oracle F G) (t a : Transcript F G) (h : ∀ m ∈ a, Plain m) : drawn ch (t ++ a) = drawn ch t := by
  obtain ⟨w, hw⟩ := drawn_prefix ch (List.prefix_append t a)
  have := congrArg List.length hw
  rw [List.length_append, drawn_len, drawn_len, numChal_append, numChal_plain a h] at this
  obtain rfl : w = [] := List.length_eq_zero_iff.1 (by omega)
  rw [← hw, List.append_nil]

/-! ### Phases -/

/-- From the first transcript to the second the messages `a` were added, the last of which is challenge number `n`, and the
challenges `b` were drawn. -/
structure Seg (ch : Oracle F G) (tr tr' : Transcript F G) (n : Nat) (a : Transcript F G) (b : List F) : Prop where
  eq : tr' = tr ++ a
  ends : Ends n a
  chs : drawn ch tr' = drawn ch tr ++ b
  len : b.length = n

theorem Seg.refl (ch : Oracle F G) (tr : Transcript F G) : Seg ch tr tr 0 [] [] := ⟨by simp, Ends.nil, by simp, rfl⟩

theorem Seg.pre {ch : Oracle F G} {tr tr' : Transcript F G} {n : Nat} {a : Transcript F G} {b : List F}
    (h : Seg ch tr tr' n a b) : tr <+: tr' := by rw [h.eq]; exact List.prefix_append _ _

theorem Seg.trans {ch : Oracle F G} {t0 t1 t2 : Transcript F G} {n m : Nat} {a a' : Transcript F G} {b b' : List F}
    (h : Seg ch t0 t1 n a b) (h' : Seg ch t1 t2 m a' b') : Seg ch t0 t2 (n + m) (a ++ a') (b ++ b') :=
  ⟨by rw [h'.eq, h.eq, List.append_assoc], h.ends.append h'.ends, by rw [h'.chs, h.chs, List.append_assoc],
    by rw [List.length_append, h.len, h'.len]⟩

/-- Plain messages in front of a phase with a challenge. -/
theorem Seg.shift {ch : Oracle F G} {tr tr' m : Transcript F G} {n : Nat} {a : Transcript F G} {b : List F}
    (h : Seg ch (tr ++ m) tr' (n + 1) a b) (hm : ∀ x ∈ m, Plain x) : Seg ch tr tr' (n + 1) (m ++ a) b := by
  refine ⟨by rw [h.eq, List.append_assoc], ?_, by rw [h.chs, drawn_plain ch tr m hm], h.len⟩
  have := h.ends
  clear h
  induction m with
  | nil => exact this
  | cons x m ih => exact (ih fun y hy => hm y (by simp [hy])).plain (hm x (by simp))

theorem Seg.one (ch : Oracle F G) (tr : Transcript F G) (l : String) :
    Seg ch tr (tr ++ [.chal l]) 1 [.chal l] [ch (tr ++ [.chal l])] :=
  ⟨rfl, Ends.nil.chal l, drawn_chal ch tr l, rfl⟩

theorem Seg.of_last {ch : Oracle F G} {tr t : Transcript F G} (h : tr <+: t) (l : String) {n : Nat} {b : List F}
    (hb : drawn ch (t ++ [.chal l]) = drawn ch tr ++ b) (hn : b.length = n) : ∃ a, Seg ch tr (t ++ [.chal l]) n (a ++ [.chal l]) b := by
  obtain ⟨a, rfl⟩ := h
  refine ⟨a, by simp, ?_, hb, hn⟩
  have := congrArg List.length hb
  rw [List.length_append, drawn_len, drawn_len, numChal_append, numChal_append] at this
  have h1 : numChal ([.chal l] : Transcript F G) = 1 := rfl
  have e : n = numChal a + 1 := by omega
  rw [e]
  exact Ends.last a l

/-- Some challenge between the two transcripts lies in the set that belongs to the messages and challenges since the first. -/
def HitT (ch : Oracle F G) (B : Transcript F G → List F → Finset F) (tr tr' : Transcript F G) : Prop :=
  ∃ a b l, tr ++ a ++ [.chal l] <+: tr' ∧ drawn ch (tr ++ a) = drawn ch tr ++ b ∧ ch (tr ++ a ++ [.chal l]) ∈ B a b

theorem HitT.mono {ch : Oracle F G} {B B' : Transcript F G → List F → Finset F} {tr tr' tr2 : Transcript F G}
    (h : HitT ch B tr tr') (hB : ∀ a b, B a b ⊆ B' a b) (hp : tr' <+: tr2) : HitT ch B' tr tr2 := by
  obtain ⟨a, b, l, h1, h2, h3⟩ := h
  exact ⟨a, b, l, h1.trans hp, h2, hB _ _ h3⟩

/-- A hit after plain messages. -/
theorem HitT.shift {ch : Oracle F G} {B B' : Transcript F G → List F → Finset F} {tr m tr' : Transcript F G}
    (h : HitT ch B (tr ++ m) tr') (hm : ∀ x ∈ m, Plain x) (hB : ∀ a b, B a b ⊆ B' (m ++ a) b) : HitT ch B' tr tr' := by
  obtain ⟨a, b, l, h1, h2, h3⟩ := h
  rw [drawn_plain ch tr m hm] at h2
  simp only [List.append_assoc] at h1 h2 h3
  exact ⟨m ++ a, b, l, by simpa [List.append_assoc] using h1, by simpa [List.append_assoc] using h2,
    hB _ _ (by simpa [List.append_assoc] using h3)⟩

theorem HitT.of_from {ch : Oracle F G} {B : List G → List F → Finset F} {tr tr' : Transcript F G} (h : HitFrom ch B tr tr') :
    HitT ch (fun a b => B (said a) b) tr tr' := by
  obtain ⟨t, l, a, b, h1, h2, h3⟩ := h
  obtain ⟨w, rfl⟩ := h1.pre
  refine ⟨w, b, l, h2, h1.chs, ?_⟩
  have := h1.pts
  rw [said_append, List.append_cancel_left_eq] at this
  beta_reduce
  rw [this]
  exact h3

theorem HitT.hit {ch : Oracle F G} {B : Transcript F G → List F → Finset F} {tr tr' : Transcript F G}
    (h : HitT ch B tr tr') (hd : drawn ch tr = []) : Hit ch (fun t vs => B (t.drop tr.length) vs) tr tr' := by
  obtain ⟨a, b, l, h1, h2, h3⟩ := h
  refine ⟨tr ++ a, l, List.prefix_append _ _, h1, ?_⟩
  beta_reduce
  rw [List.drop_left, h2, hd, List.nil_append]
  exact h3

/-- The bad challenges of two phases, the first with `n` challenges. -/
def seq (n : Nat) (A : Transcript F G → List F → Finset F)
    (C : Transcript F G → List F → Transcript F G → List F → Finset F) (a : Transcript F G) (b : List F) : Finset F :=
  if b.length < n then A a b else C (upTo n a) (b.take n) (past n a) (b.drop n)

theorem seq_card {n d : Nat} {A : Transcript F G → List F → Finset F}
    {C : Transcript F G → List F → Transcript F G → List F → Finset F}
    (hA : ∀ a b, (A a b).card ≤ d) (hC : ∀ a b a' b', (C a b a' b').card ≤ d) (a : Transcript F G) (b : List F) :
    (seq n A C a b).card ≤ d := by
  unfold seq
  split
  · exact hA _ _
  · exact hC _ _ _ _

theorem HitT.first {ch : Oracle F G} {n : Nat} {A : Transcript F G → List F → Finset F}
    {C : Transcript F G → List F → Transcript F G → List F → Finset F} {tr tr1 tr2 a : Transcript F G} {b : List F}
    (h : HitT ch A tr tr1) (hs : Seg ch tr tr1 n a b) (hp : tr1 <+: tr2) : HitT ch (seq n A C) tr tr2 := by
  obtain ⟨a', b', l, h1, h2, h3⟩ := h
  refine ⟨a', b', l, h1.trans hp, h2, ?_⟩
  have := (drawn_prefix ch h1).length_le
  rw [drawn_chal, h2, hs.chs] at this
  simp only [List.length_append, hs.len, List.length_singleton] at this
  unfold seq
  rw [if_pos (by omega)]
  exact h3

theorem HitT.second {ch : Oracle F G} {n : Nat} {A : Transcript F G → List F → Finset F}
    {C : Transcript F G → List F → Transcript F G → List F → Finset F} {tr tr1 tr2 a : Transcript F G} {b : List F}
    (hs : Seg ch tr tr1 n a b) (h : HitT ch (C a b) tr1 tr2) : HitT ch (seq n A C) tr tr2 := by
  obtain ⟨a', b', l, h1, h2, h3⟩ := h
  rw [hs.eq] at h1 h3
  refine ⟨a ++ a', b ++ b', l, by simpa [List.append_assoc] using h1, ?_, ?_⟩
  · rw [hs.chs, hs.eq] at h2
    rw [← List.append_assoc, h2, List.append_assoc]
  · unfold seq
    rw [if_neg (by simp [hs.len]), (hs.ends a').1, (hs.ends a').2, ← hs.len, List.take_left, List.drop_left]
    simpa [List.append_assoc] using h3

/-! ### Reading a transcript -/

/-- The scalars said one at a time. -/
def frVals : Transcript F G → List F
  | [] => []
  | .fr _ x :: t => x :: frVals t
  | _ :: t => frVals t

theorem frVals_append (a b : Transcript F G) : frVals (a ++ b) = frVals a ++ frVals b := by
  induction a with
  | nil => rfl
  | cons m a ih => cases m <;> simp [frVals, ih]

/-- The lists of scalars. -/
def frsVals : Transcript F G → List (List F)
  | [] => []
  | .frs _ x :: t => x :: frsVals t
  | _ :: t => frsVals t

theorem frsVals_append (a b : Transcript F G) : frsVals (a ++ b) = frsVals a ++ frsVals b := by
  induction a with
  | nil => rfl
  | cons m a ih => cases m <;> simp [frsVals, ih]

/-- The lists of points. -/
def ptsVals : Transcript F G → List (List G)
  | [] => []
  | .pts _ x :: t => x :: ptsVals t
  | _ :: t => ptsVals t

/-! ### A random combination -/

/-- The bad challenges of a random combination of errors. -/
noncomputable def badComb : F → List F → List F → Finset F
  | _, [], _ => ∅
  | s, e :: _, [] => fewRoots 1 fun x => x * e + s = x * 0 + 0
  | s, e :: es, c :: vs => badComb (s + e * c) es vs

theorem badComb_card (s : F) (e vs : List F) : (badComb s e vs).card ≤ 1 := by
  fun_induction badComb s e vs with
  | case1 => simp
  | case2 => exact fewRoots_card _ _
  | case3 _ _ _ _ _ ih => exact ih

theorem comb_sound {ch : Oracle F G} {l : String} {n : Nat} {cs : List F} {tr tr' : Transcript F G}
    (h : challenges ch l n tr = .ok (cs, tr')) (e : List F) (he : e.length = n) (s : F) :
    ∃ a, Seg ch tr tr' n a cs ∧ (HitT ch (fun _ vs => badComb s e vs) tr tr' ∨
      (s + (List.zipWith (· * ·) e cs).sum = 0 → s = 0 ∧ ∀ x ∈ e, x = 0)) := by
  induction n generalizing e s cs tr with
  | zero =>
    unfold challenges at h
    obtain ⟨rfl, rfl⟩ := Cp.pure_inv h
    obtain rfl := List.length_eq_zero_iff.1 he
    exact ⟨[], Seg.refl _ _, Or.inr fun h => ⟨by simpa using h, by simp⟩⟩
  | succ n ih =>
    obtain ⟨cs', rfl, h'⟩ := challenges_cons_inv _ _ _ _ _ _ h
    match e, he with
    | x :: e, he =>
    obtain ⟨c, hc⟩ : ∃ c, c = ch (tr ++ [.chal l]) := ⟨_, rfl⟩
    rw [← hc]
    obtain ⟨a, hs, ho⟩ := ih h' e (by simpa using he) (s + x * c)
    have h1 := Seg.one ch tr l
    rw [← hc] at h1
    refine ⟨[.chal l] ++ a, by rw [Nat.add_comm n 1]; exact h1.trans hs, ?_⟩
    rcases ho with ho | ho
    · left
      have := HitT.second (A := fun _ _ => badComb s (x :: e) []) (C := fun _ b _ b' => badComb s (x :: e) (b ++ b')) h1
        (tr2 := tr') (by simpa [badComb] using ho)
      refine this.mono (fun a b => ?_) List.prefix_rfl
      unfold seq
      cases b with
      | nil => simp
      | cons y b => simp
    · by_cases hx : x ≠ 0 ∧ x * c + s = 0
      · left
        refine ⟨[], [], l, by simpa using hs.pre, by simp, ?_⟩
        rw [List.append_nil, ← hc]
        exact lin_one (e := s) (g := 0) hx.1 (by linear_combination hx.2)
      · right
        intro h0
        rw [List.zipWith_cons_cons, List.sum_cons, ← add_assoc] at h0
        obtain ⟨h2, h3⟩ := ho h0
        have hx0 : x = 0 := by
          by_contra hne
          exact hx ⟨hne, by linear_combination h2⟩
        exact ⟨by rw [hx0] at h2; simpa using h2, by simpa using ⟨hx0, h3⟩⟩

/-! ### A random point -/

/-- The bad challenges of a random point for two lists that may differ; the coordinate 1 is always bad. -/
noncomputable def badPoint (truth claimed : List F) (vs : List F) : Finset F :=
  badOut (List.zipWith (· - ·) claimed truth) vs ∪ {1}

theorem badPoint_card (truth claimed vs : List F) : (badPoint truth claimed vs).card ≤ 2 :=
  (Finset.card_union_le _ _).trans (by
    have : (badOut (List.zipWith (· - ·) claimed truth) vs).card ≤ 1 := fewRoots_card _ _
    simp; omega)

theorem mle_sub (a b r : List F) (h : a.length = b.length) : mle (List.zipWith (· - ·) a b) r = mle a r - mle b r := by
  unfold mle
  rw [← Finset.sum_sub_distrib]
  refine Finset.sum_congr rfl fun i _ => ?_
  rw [← sub_mul]
  congr 1
  by_cases hi : i < a.length
  · rw [List.getD_eq_getElem _ _ (by simp; omega), List.getD_eq_getElem _ _ hi, List.getD_eq_getElem _ _ (by omega)]
    simp
  · rw [List.getD_eq_default _ _ (by simp; omega), List.getD_eq_default _ _ (by omega), List.getD_eq_default _ _ (by omega)]
    simp

theorem challenges_seg {ch : Oracle F G} {l : String} {n : Nat} {rs : List F} {tr tr' : Transcript F G}
    (h : challenges ch l n tr = .ok (rs, tr')) : ∃ a, Seg ch tr tr' n a rs := by
  obtain ⟨a, hs, _⟩ := comb_sound h (List.replicate n 0) (by simp) 0
  exact ⟨a, hs⟩

theorem one_sound {ch : Oracle F G} {l : String} {n : Nat} {rs : List F} {tr tr' : Transcript F G}
    (h : challenges ch l n tr = .ok (rs, tr')) : HitT ch (fun _ _ => {1}) tr tr' ∨ ∀ r ∈ rs, r ≠ 1 := by
  induction n generalizing rs tr with
  | zero =>
    unfold challenges at h
    obtain ⟨rfl, rfl⟩ := Cp.pure_inv h
    exact Or.inr (by simp)
  | succ n ih =>
    obtain ⟨cs', rfl, h'⟩ := challenges_cons_inv _ _ _ _ _ _ h
    obtain ⟨a, hs⟩ := challenges_seg h'
    by_cases h1 : ch (tr ++ [.chal l]) = 1
    · left
      exact ⟨[], [], l, by simpa using hs.pre, by simp, by simpa using h1⟩
    · rcases ih h' with ⟨a', b', l', q1, q2, q3⟩ | ho
      · left
        refine ⟨[.chal l] ++ a', [ch (tr ++ [.chal l])] ++ b', l', by simpa [List.append_assoc] using q1, ?_, ?_⟩
        · rw [← List.append_assoc, q2, drawn_chal, List.append_assoc]
        · simpa [List.append_assoc] using q3
      · right
        simpa using ⟨h1, ho⟩

theorem point_sound {ch : Oracle F G} {l : String} {n : Nat} {rs : List F} {tr tr' : Transcript F G}
    (h : challenges ch l n tr = .ok (rs, tr')) (truth claimed : List F) (h1 : truth.length = 2 ^ n)
    (h2 : claimed.length = 2 ^ n) :
    HitT ch (fun _ vs => badPoint truth claimed vs) tr tr' ∨
      ((∀ r ∈ rs, r ≠ 1) ∧ (mle claimed rs = mle truth rs → claimed = truth)) := by
  rcases one_sound h with hit | hone
  · exact Or.inl (hit.mono (fun a b => Finset.subset_union_right) List.prefix_rfl)
  by_cases heq : claimed = truth
  · exact Or.inr ⟨hone, fun _ => heq⟩
  have hne : ∃ j, (List.zipWith (· - ·) claimed truth).getD j 0 ≠ 0 := by
    by_contra hno
    push Not at hno
    apply heq
    apply List.ext_getElem (by rw [h1, h2])
    intro i q1 q2
    have := hno i
    rw [List.getD_eq_getElem _ _ (by simp; omega)] at this
    simpa [sub_eq_zero] using this
  rcases out_sound ch l n _ rs tr tr' (by simp [h1, h2]) hne h with hit | hm
  · left
    exact (HitT.of_from (HitFrom.of_hit (B := fun vs => badOut (List.zipWith (· - ·) claimed truth) vs) hit)).mono
      (fun a b => Finset.subset_union_left) List.prefix_rfl
  · right
    refine ⟨hone, fun h => absurd ?_ hm⟩
    rw [mle_sub _ _ _ (by rw [h1, h2]), h, sub_self]

end Zkp.Sc
