/- Proofs about the comparison circuit. -/
import Verif.Model.RangeProof
import Verif.Proof.Rescue
import Verif.Proof.Fr
import Mathlib.Tactic.LinearCombination
import Mathlib.Tactic.NormNum

set_option linter.unusedSectionVars false
set_option linter.unusedSimpArgs false

namespace Zkp

/-! ### Running without error -/

variable {F : Type} [Field F]

/-- `m` succeeds on every state of the given mode. -/
def Runs (pr : Bool) {α : Type} (m : Synth F α) (P : α → Prop) : Prop :=
  ∀ cs : CS F, cs.proving = pr → ∃ a cs', m cs = .ok (a, cs') ∧ cs'.proving = pr ∧ P a

theorem Runs.bind {pr : Bool} {α β : Type} {m : Synth F α} {f : α → Synth F β} {P : α → Prop}
    {Q : β → Prop} (hm : Runs pr m P) (hf : ∀ a, P a → Runs pr (f a) Q) : Runs pr (m >>= f) Q := by
  intro cs hp
  obtain ⟨a, cs1, h1, h2, h3⟩ := hm cs hp
  obtain ⟨b, cs2, h4, h5, h6⟩ := hf a h3 cs1 h2
  exact ⟨b, cs2, by simp only [Bind.bind, StateT.bind, h1, Except.bind, h4], h5, h6⟩

theorem Runs.pure {pr : Bool} {α : Type} {a : α} {P : α → Prop} (h : P a) :
    Runs pr (Pure.pure a : Synth F α) P := fun cs hp => ⟨a, cs, rfl, hp, h⟩

theorem Runs.alloc {pr : Bool} {f : Except SynthesisError F} (h : pr = true → ∃ v, f = .ok v) :
    Runs pr (Zkp.alloc f) (fun _ => True) := by
  intro cs hp
  cases pr
  · exact ⟨.aux cs.aux.length, { cs with aux := cs.aux ++ [0] }, by simp [Zkp.alloc, hp], hp, trivial⟩
  · obtain ⟨v, rfl⟩ := h rfl
    exact ⟨.aux cs.aux.length, { cs with aux := cs.aux ++ [v] }, by simp [Zkp.alloc, hp], hp, trivial⟩

theorem Runs.allocInput {pr : Bool} {f : Except SynthesisError F} (h : pr = true → ∃ v, f = .ok v) :
    Runs pr (Zkp.allocInput f) (fun _ => True) := by
  intro cs hp
  cases pr
  · exact ⟨.input cs.inputs.length, { cs with inputs := cs.inputs ++ [0] },
      by simp [Zkp.allocInput, hp], hp, trivial⟩
  · obtain ⟨v, rfl⟩ := h rfl
    exact ⟨.input cs.inputs.length, { cs with inputs := cs.inputs ++ [v] },
      by simp [Zkp.allocInput, hp], hp, trivial⟩

theorem Runs.enforce {pr : Bool} {a b c : LC F} : Runs pr (Zkp.enforce a b c) (fun _ => True) :=
  fun _ hp => ⟨_, _, rfl, hp, trivial⟩

theorem Runs.mapM {pr : Bool} {ι β : Type} {f : ι → Synth F β}
    (hf : ∀ i, Runs pr (f i) (fun _ => True)) (l : List ι) :
    Runs pr (l.mapM f) (fun _ => True) := by
  induction l with
  | nil => exact Runs.pure trivial
  | cons i l ih =>
    rw [List.mapM_cons]
    exact (hf i).bind fun b _ => ih.bind fun r _ => Runs.pure trivial

theorem Runs.forM {pr : Bool} {ι : Type} {f : ι → Synth F Unit}
    (hf : ∀ i, Runs pr (f i) (fun _ => True)) (l : List ι) :
    Runs pr (l.forM f) (fun _ => True) := by
  induction l with
  | nil => exact Runs.pure trivial
  | cons i l ih => exact (hf i).bind fun b _ => ih

theorem Snd.mapM {ι β : Type} {f : ι → Synth F β} {R : (Index → F) → ι → β → Prop}
    (hf : ∀ i, Snd (f i) (fun w b => R w i b)) (l : List ι) :
    Snd (l.mapM f) (fun w r => List.Forall₂ (R w) l r) := by
  induction l with
  | nil => exact Snd.pure fun w _ => .nil
  | cons i l ih =>
    rw [List.mapM_cons]
    exact (hf i).bind fun b => ih.bind fun r => Snd.pure fun w _ h1 h2 => .cons h2 h1

theorem Snd.forM {ι : Type} {f : ι → Synth F Unit} {R : (Index → F) → ι → Prop}
    (hf : ∀ i, Snd (f i) (fun w _ => R w i)) (l : List ι) :
    Snd (l.forM f) (fun w _ => ∀ i ∈ l, R w i) := by
  induction l with
  | nil => exact Snd.pure fun w _ => by simp
  | cons i l ih =>
    exact (hf i).bind fun b => ih.weaken fun w _ _ h1 h2 => by
      simp only [List.mem_cons, forall_eq_or_imp]; exact ⟨h2, h1⟩

theorem Cmp.forM {ι : Type} {f : ι → Synth F Unit} {P : CS F → ι → Prop}
    (hP : ∀ cs cs' i, cs.Ext cs' → P cs i → P cs' i)
    (hf : ∀ cs i, P cs i → Cmp cs (f i) (fun _ _ => True)) (l : List ι) {cs : CS F}
    (h : ∀ i ∈ l, P cs i) : Cmp cs (l.forM f) (fun _ _ => True) := by
  induction l generalizing cs with
  | nil => exact Cmp.pure trivial
  | cons i l ih =>
    exact (hf cs i (h i List.mem_cons_self)).bind fun b cs1 e1 _ =>
      ih fun j hj => hP _ _ _ e1 (h j (List.mem_cons_of_mem _ hj))

namespace RangeProof

variable {p : Nat} [Fact p.Prime]

/-- Number with the given bits, least significant first. -/
def leVal : List Bool → Nat
  | [] => 0
  | b :: bs => b.toNat + 2 * leVal bs

theorem leVal_lt (bs : List Bool) : leVal bs < 2 ^ bs.length := by
  induction bs with
  | nil => simp [leVal]
  | cons b bs ih => cases b <;> simp [leVal, pow_succ] <;> omega

theorem leVal_append (a b : List Bool) : leVal (a ++ b) = leVal a + 2 ^ a.length * leVal b := by
  induction a with
  | nil => simp [leVal]
  | cons x a ih => simp only [List.cons_append, leVal, ih, List.length_cons, pow_succ]; ring

theorem leVal_pos {bs : List Bool} (h : true ∈ bs) : 0 < leVal bs := by
  induction bs with
  | nil => simp at h
  | cons b bs ih =>
    cases b
    · have := ih (by simpa using h); simp [leVal]; omega
    · simp [leVal]

theorem leVal_testBit (k v : Nat) :
    leVal ((List.range k).map fun i => v.testBit i) = v % 2 ^ k := by
  induction k with
  | zero => simp [leVal, Nat.mod_one]
  | succ k ih =>
    rw [List.range_succ, List.map_append, leVal_append, ih]
    simp only [List.map_cons, List.map_nil, leVal, List.length_map, List.length_range]
    rw [Nat.mod_pow_succ, Nat.testBit_eq_decide_div_mod_eq]
    rcases Nat.mod_two_eq_zero_or_one (v / 2 ^ k) with h | h <;> simp [h]

theorem sumLC_eval (w : Index → ZMod p) (vs : List Index) :
    (sumLC vs : LC (ZMod p)).eval w = (vs.map w).sum := by
  have : ∀ (lc : LC (ZMod p)), (vs.foldl (fun lc v => lc.addTerm 1 v) lc).eval w =
      lc.eval w + (vs.map w).sum := by
    induction vs with
    | nil => simp
    | cons v vs ih => intro lc; simp [ih]; ring
  simpa [sumLC] using this LC.zero

theorem packLC_eval (w : Index → ZMod p) (vs : List Index) (bs : List Bool)
    (h : vs.map w = bs.map fun b => if b then 1 else 0) :
    (packLC vs : LC (ZMod p)).eval w = (leVal bs : ZMod p) := by
  have : ∀ (s : LC (ZMod p) × ZMod p), (vs.foldl (fun (s : LC (ZMod p) × ZMod p) v =>
      (s.1.addTerm s.2 v, s.2 + s.2)) s).1.eval w = s.1.eval w + s.2 * (leVal bs : ZMod p) := by
    induction vs generalizing bs with
    | nil =>
      have : bs = [] := by simpa using h.symm
      subst this; simp [leVal]
    | cons v vs ih =>
      intro s
      match bs, h with
      | [], h => simp at h
      | b :: bs, h =>
        simp only [List.map_cons, List.cons.injEq] at h
        rw [List.foldl_cons, ih bs h.2]
        simp only [LC.eval_addTerm, h.1, leVal]
        cases b <;> simp <;> ring
  simpa [packLC] using this (LC.zero, 1)

theorem exists_bits (xs : List (ZMod p)) (h : ∀ x ∈ xs, (1 - x) * x = 0) :
    ∃ bs : List Bool, xs = bs.map fun b => if b then 1 else 0 := by
  induction xs with
  | nil => exact ⟨[], rfl⟩
  | cons x xs ih =>
    obtain ⟨bs, hb⟩ := ih fun y hy => h y (List.mem_cons_of_mem _ hy)
    rcases mul_eq_zero.mp (h x List.mem_cons_self) with h1 | h1
    · exact ⟨true :: bs, by rw [hb]; simp; exact (sub_eq_zero.mp h1).symm⟩
    · exact ⟨false :: bs, by rw [hb]; simp; exact h1⟩

theorem sum_false (bs : List Bool) (h : true ∉ bs) :
    (bs.map fun b => if b then (1 : ZMod p) else 0).sum = 0 := by
  induction bs with
  | nil => simp
  | cons b bs ih =>
    cases b
    · simpa using ih (by simpa using h)
    · simp at h

/-- What the constraints say about an assignment. -/
theorem constraints_snd (lhs rhs twon packed : Index) (alpha : List Index)
    (leq inv output less : Index) :
    Snd (constraints (p := p) lhs rhs twon packed alpha leq inv output less)
      (fun w _ => ∃ m : Nat, 1 ≤ m ∧ m < 2 ^ alpha.length ∧
        w twon + w rhs = w lhs + 2 ^ alpha.length + m) := by
  unfold constraints
  refine (Snd.enforce _ _ _).bind fun _ => (Snd.forM (R := fun w b => (1 - w b) * w b = 0)
    (fun b => (Snd.enforce _ _ _).weaken fun w ho _ h => ?_) _).bind fun _ =>
    (Snd.enforce _ _ _).bind fun _ => (Snd.enforce _ _ _).bind fun _ =>
    (Snd.enforce _ _ _).bind fun _ => (Snd.enforce _ _ _).bind fun _ =>
    (Snd.enforce _ _ _).bind fun _ => (Snd.enforce _ _ _).weaken
      fun w ho _ h8 h7 h6 h5 h4 h3 h2 h1 => ?_
  · simpa [ho] using h
  · simp only [LC.eval_addVar, LC.eval_zero, LC.eval_subVar, zero_add, ho, one_mul, mul_one,
      sumLC_eval] at h1 h3 h4 h5 h6 h7 h8
    obtain ⟨bs, hbs⟩ := exists_bits ((alpha ++ [leq]).map w) (by
      intro x hx
      obtain ⟨v, hv, rfl⟩ := List.mem_map.mp hx
      exact h2 v hv)
    rw [packLC_eval w _ bs hbs] at h7
    have hlen : bs.length = alpha.length + 1 := by
      have := congrArg List.length hbs
      simpa using this.symm
    obtain ⟨cs, c, rfl⟩ : ∃ cs c, bs = cs ++ [c] := by
      rcases List.eq_nil_or_concat bs with h | ⟨cs, c, h⟩
      · subst h; simp at hlen
      · exact ⟨cs, c, by simpa using h⟩
    have hl : cs.length = alpha.length := by simpa using hlen
    rw [List.map_append, List.map_append] at hbs
    obtain ⟨ha, hc⟩ := List.append_inj hbs (by simp [hl])
    have hout : w output ≠ 0 := by
      intro h0
      rw [h0, mul_zero, h8] at h5
      exact zero_ne_one h5
    have hleq : w leq ≠ 0 := by
      intro h0
      rw [h0, zero_mul, h8] at h5
      exact zero_ne_one h5
    have hcT : c = true := by
      cases c
      · simp at hc; exact absurd hc hleq
      · rfl
    subst hcT
    have hmem : true ∈ cs := by
      by_contra hn
      rw [ha, sum_false cs hn, mul_zero] at h3
      exact hout h3.symm
    refine ⟨leVal cs, leVal_pos hmem, hl ▸ leVal_lt cs, ?_⟩
    rw [leVal_append, hl] at h7
    simp [leVal] at h7
    linear_combination h1 - h7

theorem alphaBits_some {L n : Nat} (h : n + 1 ≤ 64 * L) (v : ZMod p) :
    alphaBits L n v = some ((List.range (n + 1)).map fun i => if v.val.testBit i then 1 else 0) := by
  simp [alphaBits, h]

theorem bits_take (n : Nat) (v : ZMod p) :
    ((List.range (n + 1)).map fun i => if v.val.testBit i then (1 : ZMod p) else 0).take n =
      ((List.range n).map fun i => v.val.testBit i).map fun b => if b then 1 else 0 := by
  rw [List.range_succ, List.map_append, List.take_left' (by simp), List.map_map]
  rfl

theorem bits_last (n : Nat) (v : ZMod p) :
    ((List.range (n + 1)).map fun i => if v.val.testBit i then (1 : ZMod p) else 0).getD n 0 =
      if v.val.testBit n then 1 else 0 := by
  rw [List.getD_eq_getElem _ _ (by simp)]
  simp

theorem synth_snd (L n : Nat) (lhsV rhsV : Option (ZMod p)) :
    Snd (synth (p := p) L n lhsV rhsV) (fun w r => w r.2.2 = 2 ^ n →
      ∃ m : Nat, 1 ≤ m ∧ m < 2 ^ n ∧ w r.2.1 = w r.1 + m) := by
  unfold synth
  refine (Snd.alloc _).bind fun lhs => (Snd.alloc _).bind fun rhs => (Snd.allocInput _).bind
    fun twon => (Snd.alloc _).bind fun packed => ?_
  by_cases hL : n + 1 ≤ 64 * L
  · rw [alphaBits_some hL]
    simp only
    refine (Snd.mapM (R := fun _ _ _ => True) (fun i => Snd.alloc _) _).bind fun alpha =>
      (Snd.alloc _).bind fun leq => (Snd.alloc _).bind fun inv => (Snd.alloc _).bind fun output =>
      (Snd.alloc _).bind fun less => (constraints_snd _ _ _ _ _ _ _ _ _).bind fun _ =>
      Snd.pure fun w ho h _ _ _ _ hal _ _ _ _ ht => ?_
    have hlen : alpha.length = n := by
      have := hal.length_eq
      simp at this
      omega
    rw [hlen] at h
    obtain ⟨m, h1, h2, h3⟩ := h
    exact ⟨m, h1, h2, by rw [ht] at h3; linear_combination h3⟩
  · rw [show alphaBits L n _ = none by simp [alphaBits, hL]]
    exact Snd.panic _

theorem constraints_runs (pr : Bool) (lhs rhs twon packed : Index) (alpha : List Index)
    (leq inv output less : Index) :
    Runs pr (constraints (p := p) lhs rhs twon packed alpha leq inv output less)
      (fun _ => True) := by
  unfold constraints
  exact Runs.enforce.bind fun _ _ => (Runs.forM (fun _ => Runs.enforce) _).bind fun _ _ =>
    Runs.enforce.bind fun _ _ => Runs.enforce.bind fun _ _ => Runs.enforce.bind fun _ _ =>
    Runs.enforce.bind fun _ _ => Runs.enforce.bind fun _ _ => Runs.enforce

theorem synth_runs (pr : Bool) (L n : Nat) (hL : n + 1 ≤ 64 * L) (lhsV rhsV : Option (ZMod p))
    (h : pr = true → lhsV.isSome ∧ rhsV.isSome) :
    Runs pr (synth (p := p) L n lhsV rhsV) (fun _ => True) := by
  unfold synth
  refine (Runs.alloc fun hp => ?_).bind fun lhs _ => (Runs.alloc fun hp => ?_).bind fun rhs _ =>
    (Runs.allocInput fun hp => ⟨_, rfl⟩).bind fun twon _ => (Runs.alloc fun hp => ?_).bind
    fun packed _ => ?_
  · obtain ⟨v, hv⟩ := Option.isSome_iff_exists.mp (h hp).1
    exact ⟨v, by rw [hv]; rfl⟩
  · obtain ⟨v, hv⟩ := Option.isSome_iff_exists.mp (h hp).2
    exact ⟨v, by rw [hv]; rfl⟩
  · obtain ⟨v, hv⟩ := Option.isSome_iff_exists.mp (h hp).1
    obtain ⟨u, hu⟩ := Option.isSome_iff_exists.mp (h hp).2
    exact ⟨_, by rw [hv, hu]; rfl⟩
  · rw [alphaBits_some hL]
    simp only
    exact (Runs.mapM (fun i => Runs.alloc fun _ => ⟨_, rfl⟩) _).bind fun alpha _ =>
      (Runs.alloc fun _ => ⟨_, rfl⟩).bind fun _ _ => (Runs.alloc fun _ => ⟨_, rfl⟩).bind fun _ _ =>
      (Runs.alloc fun _ => ⟨_, rfl⟩).bind fun _ _ => (Runs.alloc fun _ => ⟨_, rfl⟩).bind fun _ _ =>
      (constraints_runs _ _ _ _ _ _ _ _ _ _).bind fun _ _ => Runs.pure trivial

theorem sumValue_eq (bs : List Bool) :
    sumValue (bs.map fun b => if b then (1 : ZMod p) else 0) =
      (bs.map fun b => if b then (1 : ZMod p) else 0).sum := by
  have : ∀ s : ZMod p, (bs.map fun b => if b then (1 : ZMod p) else 0).foldl
      (fun s b => if b = 0 then s else s + 1) s =
      s + (bs.map fun b => if b then (1 : ZMod p) else 0).sum := by
    induction bs with
    | nil => simp
    | cons b bs ih =>
      intro s
      cases b
      · simpa using ih s
      · simp only [List.map_cons, List.foldl_cons, List.sum_cons, if_true, one_ne_zero, if_false]
        rw [ih]; ring
  simpa [sumValue] using this 0

theorem sum_cast (bs : List Bool) :
    (bs.map fun b => if b then (1 : ZMod p) else 0).sum = ((bs.count true : Nat) : ZMod p) := by
  induction bs with
  | nil => simp
  | cons b bs ih => cases b <;> simp [ih] ; ring

theorem true_mem_of_leVal {bs : List Bool} (h : leVal bs ≠ 0) : true ∈ bs := by
  induction bs with
  | nil => simp [leVal] at h
  | cons b bs ih =>
    cases b
    · simp only [leVal, Bool.toNat_false, zero_add] at h
      exact List.mem_cons_of_mem _ (ih (by omega))
    · simp

theorem forall2_vals {cs : CS (ZMod p)} {xs : List (ZMod p)} {vs : List Index}
    (h : List.Forall₂ (fun x v => VarIs cs v x) xs vs) {w : Index → ZMod p} (hw : cs.Agrees w) :
    vs.map w = xs := by
  induction h with
  | nil => rfl
  | cons h _ ih => simp [ih, h w hw]

theorem synth_cmp (L n : Nat) (hL : n + 1 ≤ 64 * L) (hp : 2 ^ (n + 1) ≤ p) (A : ZMod p) (m : Nat)
    (hm1 : 1 ≤ m) (hm2 : m < 2 ^ n) (cs : CS (ZMod p)) :
    Cmp cs (synth (p := p) L n (some A) (some (A + m))) (fun r cs' =>
      VarIs cs' r.1 A ∧ VarIs cs' r.2.1 (A + m) ∧ VarIs cs' r.2.2 (2 ^ n)) := by
  have hpk : packedValue n (some A) (some (A + (m : ZMod p))) = some (((2 ^ n + m : Nat)) : ZMod p) := by
    simp [packedValue]; ring
  have hlt : 2 ^ n + m < p := by rw [pow_succ] at hp; omega
  have hval : (((2 ^ n + m : Nat)) : ZMod p).val = 2 ^ n + m := ZMod.val_natCast_of_lt hlt
  have htop : (2 ^ n + m).testBit n = true := by
    rw [Nat.testBit_two_pow_add_eq, Nat.testBit_lt_two_pow hm2]; rfl
  unfold synth
  rw [hpk]
  refine (Cmp.alloc' rfl).bind fun lhs cs1 e1 h1 => (Cmp.alloc' rfl).bind fun rhs cs2 e2 h2 =>
    (Cmp.allocInput' rfl).bind fun twon cs3 e3 h3 => (Cmp.alloc' rfl).bind
    fun packed cs4 e4 h4 => ?_
  rw [Option.getD_some, alphaBits_some hL]
  simp only [bits_take, bits_last]
  simp only [hval, htop, if_true]
  generalize hbs : (List.range n).map (fun i => (2 ^ n + m).testBit i) = bs
  have hbv : leVal bs = m := by
    rw [← hbs, leVal_testBit]
    simp [Nat.mod_eq_of_lt hm2]
  have hbl : bs.length = n := by rw [← hbs]; simp
  have hmem : true ∈ bs := true_mem_of_leVal (by omega)
  have hS : sumValue (bs.map fun b => if b then (1 : ZMod p) else 0) ≠ 0 := by
    rw [sumValue_eq, sum_cast]
    intro h0
    rw [ZMod.natCast_eq_zero_iff] at h0
    have hc : 0 < bs.count true := List.count_pos_iff.mpr hmem
    have hc2 : bs.count true ≤ n := hbl ▸ List.count_le_length
    have := Nat.le_of_dvd hc h0
    have := Nat.lt_two_pow_self (n := n)
    omega
  simp only [hS, if_false, one_ne_zero, or_self]
  refine (Cmp.mapM (P := fun _ _ => True) (R := fun cs x v => VarIs cs v x)
    (fun _ _ _ _ _ => trivial) (fun _ _ _ _ e h => h.mono e) (fun cs i _ => Cmp.alloc' rfl) _
    (fun _ _ => trivial)).bind fun alpha cs5 e5 h5 => (Cmp.alloc' rfl).bind fun leq cs6 e6 h6 =>
    (Cmp.alloc' rfl).bind fun inv cs7 e7 h7 => (Cmp.alloc' rfl).bind fun output cs8 e8 h8 =>
    (Cmp.alloc' rfl).bind fun less cs9 e9 h9 => ?_
  have e59 : cs5.Ext cs9 := ((e6.trans e7).trans e8).trans e9
  have hal : ∀ {c : CS (ZMod p)}, cs9.Ext c → ∀ {w : Index → ZMod p}, c.Agrees w →
      alpha.map w = bs.map fun b => if b then 1 else 0 := fun e w hw =>
    forall2_vals h5 (e59.agrees (e.agrees hw))
  have h6' : VarIs cs9 leq 1 := ((h6.mono e7).mono e8).mono e9
  have h7' := (h7.mono e8).mono e9
  have h8' := h8.mono e9
  have e49 : cs4.Ext cs9 := e5.trans e59
  have h4' := h4.mono e49
  have h3' := h3.mono (e4.trans e49)
  have h2' := h2.mono (e3.trans (e4.trans e49))
  have h1' := h1.mono (e2.trans (e3.trans (e4.trans e49)))
  suffices hC : Cmp cs9 (constraints lhs rhs twon packed alpha leq inv output less)
      (fun _ _ => True) from
    hC.bind fun _ cs10 e10 _ => Cmp.pure ⟨h1'.mono e10, h2'.mono e10, h3'.mono e10⟩
  unfold constraints
  refine (Cmp.enforce fun w ho hw => ?_).bind fun _ c1 x1 _ =>
    (Cmp.forM (P := fun cs b => VarIs cs b 0 ∨ VarIs cs b 1) ?_ ?_ _ ?_).bind fun _ c2 x2 _ =>
    (Cmp.enforce fun w ho hw => ?_).bind fun _ c3 x3 _ =>
    (Cmp.enforce fun w ho hw => ?_).bind fun _ c4 x4 _ =>
    (Cmp.enforce fun w ho hw => ?_).bind fun _ c5 x5 _ =>
    (Cmp.enforce fun w ho hw => ?_).bind fun _ c6 x6 _ =>
    (Cmp.enforce fun w ho hw => ?_).bind fun _ c7 x7 _ =>
    (Cmp.enforce fun w ho hw => ?_).weaken fun _ _ _ _ => trivial
  · simp [ho, h1' w hw, h2' w hw, h3' w hw, h4' w hw]; ring
  · intro cs cs' i e h
    exact h.imp (fun h => h.mono e) fun h => h.mono e
  · intro cs b hb
    refine (Cmp.enforce fun w ho hw => ?_).weaken fun _ _ _ _ => trivial
    rcases hb with hb | hb <;> simp [ho, hb w hw]
  · intro b hb
    rw [List.mem_append, List.mem_singleton] at hb
    rcases hb with hb | rfl
    · obtain ⟨x, hx, hv⟩ := forall2_mem_right h5 hb
      obtain ⟨c, _, rfl⟩ := List.mem_map.mp hx
      cases c
      · exact .inl ((hv.mono e59).mono x1)
      · exact .inr ((hv.mono e59).mono x1)
    · exact .inr (h6'.mono x1)
  · have e := x1.trans x2
    simp [sumLC_eval, hal e hw, h7'.mono e w hw, h8'.mono e w hw]
    rw [← sumValue_eq, inv_mul_cancel₀ hS]
  · have e := (x1.trans x2).trans x3
    simp [sumLC_eval, ho, hal e hw, h8'.mono e w hw]
  · have e := ((x1.trans x2).trans x3).trans x4
    simp [h6'.mono e w hw, h8'.mono e w hw, h9.mono e w hw]
  · have e := (((x1.trans x2).trans x3).trans x4).trans x5
    simp [ho, h8'.mono e w hw]
  · have e := ((((x1.trans x2).trans x3).trans x4).trans x5).trans x6
    rw [packLC_eval w (alpha ++ [leq]) (bs ++ [true]) (by
      simp [hal e hw, h6'.mono e w hw])]
    simp [ho, h4'.mono e w hw, leVal_append, hbv, hbl, leVal]
    ring
  · have e := (((((x1.trans x2).trans x3).trans x4).trans x5).trans x6).trans x7
    simp [ho, h9.mono e w hw]

end RangeProof

end Zkp
