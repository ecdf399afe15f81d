import Verif.Model.HashIface
import Verif.Proof.Mimc

set_option linter.unusedSectionVars false
set_option linter.unusedSimpArgs false

namespace Zkp

variable {F : Type} [Field F]

theorem Cmp.mapM {ι β : Type} {f : ι → Synth F β} {P : CS F → ι → Prop} {R : CS F → ι → β → Prop}
    (hP : ∀ cs cs' i, cs.Ext cs' → P cs i → P cs' i)
    (hR : ∀ cs cs' i b, cs.Ext cs' → R cs i b → R cs' i b)
    (hf : ∀ cs i, P cs i → Cmp cs (f i) (fun b cs' => R cs' i b)) (l : List ι) {cs : CS F}
    (h : ∀ i ∈ l, P cs i) : Cmp cs (l.mapM f) (fun r cs' => List.Forall₂ (R cs') l r) := by
  induction l generalizing cs with
  | nil => exact Cmp.pure .nil
  | cons i l ih =>
    rw [List.mapM_cons]
    refine (hf cs i (h i List.mem_cons_self)).bind fun b cs1 e1 h1 => ?_
    refine (ih fun j hj => hP _ _ _ e1 (h j (List.mem_cons_of_mem _ hj))).bind
      fun r cs2 e2 h2 => Cmp.pure (.cons (hR _ _ _ _ e2 h1) h2)

/-- The list of bits, most significant first, as a number. -/
def bitsVal (bs : List Bool) : Nat := bs.foldl (fun n b => 2 * n + b.toNat) 0

theorem bitsVal_append (a b : List Bool) : bitsVal (a ++ b) = bitsVal a * 2 ^ b.length + bitsVal b := by
  unfold bitsVal
  rw [List.foldl_append]
  generalize a.foldl (fun n b => 2 * n + b.toNat) 0 = n
  induction b using List.reverseRecOn with
  | nil => simp
  | append_singleton b x ih =>
    rw [List.foldl_append, List.foldl_append, ih]
    simp only [List.foldl_cons, List.foldl_nil, List.length_append, List.length_singleton, pow_succ]
    ring

theorem bitsVal_testBit (v n : Nat) :
    bitsVal ((List.range n).reverse.map fun i => v.testBit i) = v % 2 ^ n := by
  induction n with
  | zero => simp [bitsVal, Nat.mod_one]
  | succ n ih =>
    rw [List.range_succ, List.reverse_append, List.reverse_singleton, List.singleton_append,
      List.map_cons, ← List.singleton_append, bitsVal_append, ih]
    simp only [bitsVal, List.foldl_cons, List.foldl_nil, Nat.mul_zero, Nat.zero_add,
      List.length_map, List.length_reverse, List.length_range]
    rw [Nat.mod_pow_succ, Nat.testBit_eq_decide_div_mod_eq]
    rcases Nat.mod_two_eq_zero_or_one (v / 2 ^ n) with h | h <;> rw [h] <;> simp <;> ring

theorem bitsVal_bitIterator (limbs : List Nat) (h : ∀ l ∈ limbs, l < 2 ^ 64) :
    bitsVal (bitIteratorBE limbs) = limbsVal limbs := by
  unfold bitIteratorBE limbsVal
  induction limbs with
  | nil => rfl
  | cons l ls ih =>
    rw [List.reverse_cons, List.flatMap_append, bitsVal_append,
      ih fun x hx => h x (List.mem_cons_of_mem _ hx), List.foldr_cons]
    simp only [List.flatMap_cons, List.flatMap_nil, List.append_nil]
    rw [bitsVal_testBit, Nat.mod_eq_of_lt (h l List.mem_cons_self)]
    simp only [List.length_map, List.length_reverse, List.length_range]
    ring

namespace Pow

/-- One square-and-multiply step on values. -/
def vstep (b : F) (s : Bool × F) (i : Bool) : Bool × F :=
  if !s.1 && !i then s else (true, if i then s.2 * s.2 * b else s.2 * s.2)

theorem step_snd (sv : F) (state : Index) (s : St F) (i : Bool) :
    Snd (step sv state s i) (fun w s' => (s'.found, w s'.res) =
      vstep (w state) (s.found, w s.res) i) := by
  unfold step vstep
  by_cases h : (!s.found && !i) = true
  · rw [if_pos h]
    exact Snd.pure fun w _ => by rw [if_pos h]
  · rw [if_neg h]
    refine (Snd.alloc _).bind fun tmp => (Snd.enforce _ _ _).bind fun _ => ?_
    cases i with
    | false =>
      refine Snd.pure ?_
      intro w h1 he _
      simp [h1] at he
      rw [if_neg h]; simp [he]
    | true =>
      refine (Snd.alloc _).bind fun tmp2 => (Snd.enforce _ _ _).bind fun _ => Snd.pure ?_
      intro w h1 he' _ he _
      simp [h1] at he he'
      rw [if_neg h]; simp [he', he]

theorem vfold (b r : F) (bs : List Bool) (fnd : Bool) (m v : Nat)
    (h : fnd = false → v = 0 ∧ m = 0) :
    ∃ m', (bs.foldl (vstep b) (fnd, r ^ 2 ^ m * b ^ v)).2 =
      r ^ 2 ^ m' * b ^ (v * 2 ^ bs.length + bitsVal bs) ∧ (0 < bitsVal bs → 0 < m') ∧ (m ≤ m') := by
  induction bs generalizing fnd m v with
  | nil => exact ⟨m, by simp [bitsVal], by simp [bitsVal], le_refl _⟩
  | cons i bs ih =>
    rw [List.foldl_cons, ← List.singleton_append, bitsVal_append, List.length_append,
      List.length_singleton]
    by_cases hc : (!fnd && !i) = true
    · have hf : fnd = false ∧ i = false := by simpa using hc
      obtain ⟨rfl, rfl⟩ := h hf.1
      obtain ⟨rfl, rfl⟩ := hf
      obtain ⟨m', h1, h2⟩ := ih false 0 0 (fun _ => ⟨rfl, rfl⟩)
      refine ⟨m', ?_, ?_⟩
      · have e : vstep b (false, r ^ 2 ^ 0 * b ^ 0) false = (false, r ^ 2 ^ 0 * b ^ 0) := rfl
        rw [e, h1]; simp [bitsVal]
      · simpa [bitsVal] using h2
    · have e : vstep b (fnd, r ^ 2 ^ m * b ^ v) i =
          (true, r ^ 2 ^ (m + 1) * b ^ (2 * v + i.toNat)) := by
        unfold vstep
        rw [if_neg hc]
        congr 1
        cases i <;> simp <;> ring
      obtain ⟨m', h1, h2, h3⟩ := ih true (m + 1) (2 * v + i.toNat) (by simp)
      refine ⟨m', ?_, fun _ => by omega, by omega⟩
      rw [e, h1]
      congr 2
      simp only [bitsVal, List.foldl_cons, List.foldl_nil]
      ring

theorem pow_snd (sv : F) (state : Index) (exp : List Nat) (cs : CS F) (r : F × Index) (cs' : CS F)
    (h : powWithConstraint sv state exp cs = .ok (r, cs')) :
    cs.Ext cs' ∧ ∀ w : Index → F, w .one = 1 → cs'.Sat w →
      ∃ m, w r.2 = w (.aux cs.aux.length) ^ 2 ^ m * w state ^ bitsVal (bitIteratorBE exp) ∧
        (0 < bitsVal (bitIteratorBE exp) → 0 < m) := by
  unfold powWithConstraint at h
  obtain ⟨res, cs1, h1, h2⟩ := Synth.bind_ok.mp h
  have hres : res = .aux cs.aux.length := by
    unfold alloc at h1
    split at h1 <;> simp at h1 <;> exact h1.1.symm
  have e1 := (Snd.alloc (F := F) _ _ _ _ h1).1
  obtain ⟨e2, q⟩ := ((Snd.foldlM (abs := fun w (s : St F) => (s.found, w s.res))
    (g := fun w => vstep (w state)) (step_snd sv state) (bitIteratorBE exp) ⟨false, 0, res⟩).map
    (f := fun s => (s.resValue, s.res)) (Q := fun w r => w r.2 =
      ((bitIteratorBE exp).foldl (vstep (w state)) (false, w res)).2)
    fun w _ s hs => congrArg Prod.snd hs) _ _ _ h2
  refine ⟨e1.trans e2, fun w hw hs => ?_⟩
  obtain ⟨m, hm, hm', -⟩ := vfold (w state) (w res) (bitIteratorBE exp) false 0 0
    (fun _ => ⟨rfl, rfl⟩)
  refine ⟨m, ?_, hm'⟩
  rw [q w hw hs, ← hres]
  simpa using hm

/-- The honest run assigns zero to every intermediate and final power. -/
theorem step_cmp {cs : CS F} (sv : F) (state : Index) (s : St F) (i : Bool) (h0 : s.resValue = 0)
    (hr : VarIs cs s.res 0) :
    Cmp cs (step sv state s i) (fun s' cs' => s'.resValue = 0 ∧ VarIs cs' s'.res 0) := by
  unfold step
  by_cases h : (!s.found && !i) = true
  · rw [if_pos h]; exact Cmp.pure ⟨h0, hr⟩
  · rw [if_neg h, h0]
    refine (Cmp.alloc' rfl).bind fun tmp cs1 e1 h1 => (Cmp.enforce ?_).bind fun _ cs2 e2 _ => ?_
    · intro w ho hw
      simp [(hr.mono e1) w hw, h1 w hw]
    · have h1' : VarIs cs2 tmp 0 := by simpa using h1.mono e2
      cases i with
      | false => exact Cmp.pure ⟨by simp, h1'⟩
      | true =>
        refine (Cmp.alloc' rfl).bind fun tmp2 cs3 e3 h3 => (Cmp.enforce ?_).bind
          fun _ cs4 e4 _ => Cmp.pure ⟨by simp, ?_⟩
        · intro w ho hw
          simp [(h1'.mono e3) w hw, h3 w hw]
        · simpa using h3.mono e4

theorem pow_cmp {cs : CS F} (sv : F) (state : Index) (exp : List Nat) :
    Cmp cs (powWithConstraint sv state exp) (fun r cs' => r.1 = 0 ∧ VarIs cs' r.2 0) := by
  unfold powWithConstraint
  refine (Cmp.alloc' rfl).bind fun res cs1 e1 h1 => ?_
  refine (Cmp.foldlM (Rs := fun cs (s : St F) (_ : Unit) => s.resValue = 0 ∧ VarIs cs s.res 0)
    (g := fun _ _ => ()) _ (fun cs s t i _ h => step_cmp sv state s i h.1 h.2)
    (t := ()) ⟨rfl, h1⟩).map fun s cs2 e2 h2 => h2

end Pow

/-! ### Layers of Rescue and Poseidon: what an honest run assigns -/

/-- The variable of the cell has the value of the cell. -/
def Cell.Ok (cs : CS F) (c : Cell F) : Prop := VarIs cs c.2 c.1

theorem Cell.Ok.mono {cs cs' : CS F} {c : Cell F} (h : Cell.Ok cs c) (e : cs.Ext cs') :
    Cell.Ok cs' c := VarIs.mono h e

theorem forall2_mem_right {α β : Type} {R : α → β → Prop} {l : List α} {r : List β}
    (h : List.Forall₂ R l r) {b : β} (hb : b ∈ r) : ∃ a ∈ l, R a b := by
  induction h with
  | nil => simp at hb
  | cons h _ ih =>
    rcases List.mem_cons.mp hb with rfl | hb
    · exact ⟨_, List.mem_cons_self, h⟩
    · obtain ⟨a, ha, hr⟩ := ih hb
      exact ⟨a, List.mem_cons_of_mem _ ha, hr⟩

theorem forall2_map_eq {α β γ : Type} {f : α → γ} {g : β → γ} {l : List α} {r : List β}
    (h : List.Forall₂ (fun a b => g b = f a) l r) : r.map g = l.map f := by
  induction h with
  | nil => rfl
  | cons h _ ih => simp [h, ih]

theorem addConstants_cmp {cs : CS F} (c : List F) (st : List (Cell F))
    (h : ∀ e ∈ st, Cell.Ok cs e) :
    Cmp cs (addConstants c st) (fun r cs' => (∀ e ∈ r, Cell.Ok cs' e) ∧
      r.map Prod.fst = (st.zip c).map fun e => e.1.1 + e.2) := by
  unfold addConstants
  refine (Cmp.mapM (P := fun cs e => Cell.Ok cs e.1)
    (R := fun cs e b => Cell.Ok cs b ∧ b.1 = e.1.1 + e.2) (fun _ _ _ e h => Cell.Ok.mono h e)
    (fun _ _ _ _ e h => ⟨Cell.Ok.mono h.1 e, h.2⟩) ?_ (st.zip c) ?_).weaken ?_
  · intro cs e he
    refine (Cmp.alloc' rfl).bind fun tmp cs1 e1 h1 => (Cmp.enforce ?_).bind fun _ cs2 e2 _ =>
      Cmp.pure ⟨h1.mono e2, rfl⟩
    intro w ho hw
    simp [ho, (VarIs.mono he e1) w hw, h1 w hw]
  · intro e he
    exact h _ (List.of_mem_zip he).1
  · intro r cs' _ hr
    constructor
    · intro e he
      obtain ⟨a, _, ha⟩ := forall2_mem_right hr he
      exact ha.1
    · exact forall2_map_eq (hr.imp fun _ _ h => h.2)

theorem mixRow_cmp {cs : CS F} (st : List (Cell F)) (row : List F) (acc : Cell F)
    (h : ∀ k, VarIs cs (st.getD k (0, .one)).2 (st.getD k (0, .one)).1 ∨ 3 ≤ k)
    (ha : Cell.Ok cs acc) :
    Cmp cs (mixRow st row acc) (fun r cs' => Cell.Ok cs' r ∧ r.1 = (List.range 3).foldl
      (fun t k => row.getD k 0 * (st.getD k (0, .one)).1 + t) acc.1) := by
  unfold mixRow
  have := Cmp.foldlM (F := F) (ι := Nat) (Rs := fun cs (a : Cell F) (t : F) => Cell.Ok cs a ∧ a.1 = t ∧
      ∀ k, VarIs cs (st.getD k (0, .one)).2 (st.getD k (0, .one)).1 ∨ 3 ≤ k)
    (f := fun (acc : Cell F) k => do
      let m := row.getD k 0
      let s := st.getD k (0, .one)
      let tmp3 ← alloc (.ok m)
      let tmp4Value := m * s.1 + acc.1
      let tmp4 ← alloc (.ok tmp4Value)
      enforce (LC.zero.addVar tmp3) (LC.zero.addVar s.2) ((LC.zero.addVar tmp4).subVar acc.2)
      return (tmp4Value, tmp4))
    (g := fun t k => row.getD k 0 * (st.getD k (0, .one)).1 + t) (List.range 3) ?_
    (cs := cs) (s := acc) (t := acc.1) ⟨ha, rfl, h⟩
  · exact this.weaken fun a cs' _ h => ⟨h.1, h.2.1⟩
  · intro cs acc t k hk ⟨h1, h2, h3⟩
    subst h2
    refine (Cmp.alloc' rfl).bind fun tmp3 cs1 e1 g1 => (Cmp.alloc' rfl).bind fun tmp4 cs2 e2 g2 =>
      (Cmp.enforce ?_).bind fun _ cs3 e3 _ => Cmp.pure ⟨g2.mono e3, rfl, fun k' => ?_⟩
    · intro w ho hw
      rcases h3 k with hs | hs
      · have q1 := (VarIs.mono h1 (e1.trans e2)) w hw
        have q2 := (VarIs.mono hs (e1.trans e2)) w hw
        rw [LC.eval_addVar, LC.eval_addVar, LC.eval_subVar, LC.eval_addVar]
        rw [q1, q2, (g1.mono e2) w hw, g2 w hw]
        simp
      · exact absurd (List.mem_range.mp hk) (by omega)
    · rcases h3 k' with hs | hs
      · exact .inl (VarIs.mono hs (e1.trans (e2.trans e3)))
      · exact .inr hs

theorem ok_getD {cs : CS F} {st : List (Cell F)} (h : ∀ e ∈ st, Cell.Ok cs e) {k : Nat}
    (hk : k < st.length) : VarIs cs (st.getD k (0, .one)).2 (st.getD k (0, .one)).1 := by
  rw [List.getD_eq_getElem _ _ hk]; exact h _ (List.getElem_mem hk)

/-- The value the mixing layer computes for one row. -/
def rowVal (st : List (Cell F)) (row : List F) : F :=
  (List.range 3).foldl (fun t k => row.getD k 0 * (st.getD k (0, .one)).1 + t) 0

theorem mixLayer_cmp {cs : CS F} (mds : List (List F)) (hm : mds.length = 3) (st : List (Cell F))
    (hl : st.length = 3) (h : ∀ e ∈ st, Cell.Ok cs e) :
    Cmp cs (mixLayer mds st) (fun r cs' => (∀ e ∈ r, Cell.Ok cs' e) ∧
      r.map Prod.fst = mds.map (rowVal st)) := by
  unfold mixLayer
  refine Cmp.bind (P := fun accs cs' => List.Forall₂ (fun (_ : Nat) (c : Cell F) =>
      Cell.Ok cs' c ∧ c.1 = 0) (List.range 3) accs)
    (Cmp.mapM (P := fun _ _ => True) (fun _ _ _ _ _ => trivial)
      (fun _ _ _ _ e h => ⟨Cell.Ok.mono h.1 e, h.2⟩) (fun cs i _ => ?_) _ fun _ _ => trivial)
    fun accs cs1 e1 haccs => ?_
  · exact (Cmp.alloc' rfl).bind fun v cs1 e1 h1 => Cmp.pure ⟨h1, rfl⟩
  · have hal : accs.length = 3 := by have := haccs.length_eq; simpa using this.symm
    refine (Cmp.mapM (P := fun cs (e : List F × Cell F) => Cell.Ok cs e.2 ∧ e.2.1 = 0 ∧
        ∀ e ∈ st, Cell.Ok cs e)
      (R := fun cs e (b : Cell F) => Cell.Ok cs b ∧ b.1 = rowVal st e.1)
      (fun _ _ _ e h => ⟨Cell.Ok.mono h.1 e, h.2.1, fun x hx => Cell.Ok.mono (h.2.2 x hx) e⟩)
      (fun _ _ _ _ e h => ⟨Cell.Ok.mono h.1 e, h.2⟩) ?_ (mds.zip accs) ?_).weaken ?_
    · intro cs e ⟨g1, g2, g3⟩
      refine (mixRow_cmp st e.1 e.2 (fun k => ?_) g1).weaken fun r cs' _ hr => ⟨hr.1, ?_⟩
      · by_cases hk : k < 3
        · exact .inl (ok_getD g3 (by omega))
        · exact .inr (by omega)
      · rw [hr.2, g2]; rfl
    · intro e he
      obtain ⟨a, _, ha⟩ := forall2_mem_right haccs (List.of_mem_zip he).2
      exact ⟨ha.1, ha.2, fun x hx => (h x hx).mono e1⟩
    · intro r cs' _ hr
      refine ⟨fun e he => ?_, ?_⟩
      · obtain ⟨a, _, ha⟩ := forall2_mem_right hr he
        exact ha.1
      · rw [forall2_map_eq (f := fun e => rowVal st e.1) (g := Prod.fst)
          (hr.imp fun _ _ h => h.2)]
        have : (mds.zip accs).map (fun e => rowVal st e.1) =
            ((mds.zip accs).map Prod.fst).map (rowVal st) := by simp
        rw [this, List.map_fst_zip (by omega)]

/-- On an all-zero state the mixing layer yields zeros. -/
theorem mixLayer_zero {cs : CS F} (mds : List (List F)) (hm : mds.length = 3) (st : List (Cell F))
    (hl : st.length = 3) (h : ∀ e ∈ st, Cell.Ok cs e) (h0 : ∀ e ∈ st, e.1 = 0) :
    Cmp cs (mixLayer mds st) (fun r cs' => (∀ e ∈ r, Cell.Ok cs' e) ∧
      r.map Prod.fst = [0, 0, 0]) := by
  refine (mixLayer_cmp mds hm st hl h).weaken fun r cs' _ hr => ⟨hr.1, ?_⟩
  have hz : ∀ k, k < 3 → (st.getD k (0, .one)).1 = 0 := fun k hk => by
    rw [List.getD_eq_getElem _ _ (by omega : k < st.length)]
    exact h0 _ (List.getElem_mem _)
  have hrow : rowVal st = fun _ => 0 := by
    funext row
    have e3 : List.range 3 = [0, 1, 2] := rfl
    simp only [rowVal, e3, List.foldl_cons, List.foldl_nil]
    rw [hz 0 (by omega), hz 1 (by omega), hz 2 (by omega)]
    simp
  rw [hr.2, hrow, List.map_const', hm]; rfl

theorem powLayer_zero {cs : CS F} (exp : List Nat) (st : List (Cell F)) :
    Cmp cs (st.mapM fun e => Pow.powWithConstraint e.1 e.2 exp) (fun r cs' =>
      (∀ e ∈ r, Cell.Ok cs' e ∧ e.1 = 0) ∧ r.length = st.length) := by
  refine (Cmp.mapM (P := fun _ _ => True) (R := fun cs _ (b : Cell F) => Cell.Ok cs b ∧ b.1 = 0)
    (fun _ _ _ _ _ => trivial) (fun _ _ _ _ e h => ⟨Cell.Ok.mono h.1 e, h.2⟩)
    (fun cs i _ => (Pow.pow_cmp i.1 i.2 exp).weaken ?_) st
    fun _ _ => trivial).weaken ?_
  · intro r cs' _ h
    refine ⟨?_, h.1⟩
    unfold Cell.Ok; rw [h.1]; exact h.2
  · intro r cs' _ hr
    refine ⟨fun e he => ?_, hr.length_eq.symm⟩
    obtain ⟨a, _, ha⟩ := forall2_mem_right hr he
    exact ha

namespace Rescue

theorem circuitRound_cmp {cs : CS F} (rc mds : List (List F)) (hm : mds.length = 3)
    (st : List (Cell F)) (hl : st.length = 3) (i : Nat) (hc : (rc.getD (i + 1) []).length = 3) :
    Cmp cs (circuitRound rc mds st i) (fun r cs' => (∀ e ∈ r, Cell.Ok cs' e) ∧
      r.map Prod.fst = rc.getD (i + 1) []) := by
  unfold circuitRound
  refine (powLayer_zero _ st).bind fun st1 cs1 e1 h1 => ?_
  refine (mixLayer_zero mds hm st1 (h1.2.trans hl) (fun e he => (h1.1 e he).1)
    (fun e he => (h1.1 e he).2)).bind fun st2 cs2 e2 h2 => ?_
  refine (addConstants_cmp _ st2 h2.1).weaken fun r cs' _ hr => ⟨hr.1, ?_⟩
  rw [hr.2]
  have h2l : st2.map Prod.fst = [0, 0, 0] := h2.2
  have h2n : st2.length = 3 := by have := congrArg List.length h2l; simpa using this
  obtain ⟨a, b, c, rfl⟩ := List.length_eq_three.mp h2n
  obtain ⟨x, y, z, hrc⟩ := List.length_eq_three.mp hc
  rw [hrc]
  simp only [List.map_cons, List.map_nil, List.cons.injEq, and_true] at h2l
  simp [h2l.1, h2l.2.1, h2l.2.2]

/-- The public output of an honest run is the last round constant, whatever is hashed. -/
theorem circuit_cmp {cs : CS F} (rc mds : List (List F)) (hm : mds.length = 3)
    (hc : ∀ i ≤ 44, (rc.getD i []).length = 3) (xl xr : F) :
    Cmp cs (circuit rc mds xl xr) (fun out cs' => VarIs cs' out ((rc.getD 44 []).getD 0 0)) := by
  unfold circuit
  refine (Cmp.alloc' rfl).bind fun a cs1 e1 h1 => (Cmp.alloc' rfl).bind fun b cs2 e2 h2 =>
    (Cmp.alloc' rfl).bind fun c cs3 e3 h3 => ?_
  refine (addConstants_cmp _ _ ?_).bind fun st cs4 e4 h4 => ?_
  · intro e he
    simp only [List.mem_cons, List.not_mem_nil, or_false] at he
    rcases he with rfl | rfl | rfl
    · exact (h1.mono e2).mono e3
    · exact h2.mono e3
    · exact h3
  have hst : st.length = 3 := by
    have := congrArg List.length h4.2
    rw [List.length_map, List.length_map, List.length_zip, hc 0 (by omega)] at this
    simpa using this
  refine Cmp.bind (P := fun st cs' => (∀ e ∈ st, Cell.Ok cs' e) ∧
      st.map Prod.fst = rc.getD 44 []) ?_ fun st' cs5 e5 h5 => ?_
  · have key : ∀ n, n < 44 → ∀ cs' : CS F, Cmp cs' ((List.range (n + 1)).foldlM (circuitRound rc mds) st)
        (fun st cs' => (∀ e ∈ st, Cell.Ok cs' e) ∧ st.map Prod.fst = rc.getD (n + 1) []) := by
      intro n
      induction n with
      | zero =>
        intro _ cs'
        have e : List.range (0 + 1) = [0] := rfl
        rw [e, List.foldlM_cons]
        exact (circuitRound_cmp rc mds hm st hst 0 (hc 1 (by omega))).bind
          fun r cs'' _ h => Cmp.pure h
      | succ n ih =>
        intro hn cs'
        rw [List.range_succ, List.foldlM_append]
        refine (ih (by omega) cs').bind fun s1 cs'' _ hs1 => ?_
        rw [List.foldlM_cons]
        have hl1 : s1.length = 3 := by
          have := congrArg List.length hs1.2
          rw [List.length_map] at this
          rw [this]; exact hc _ (by omega)
        exact (circuitRound_cmp rc mds hm s1 hl1 (n + 1) (hc _ (by omega))).bind
          fun r cs3 _ h => Cmp.pure h
    exact key 43 (by omega) cs4
  · have hl5 : st'.length = 3 := by
      have := congrArg List.length h5.2
      rw [List.length_map] at this
      rw [this]; exact hc _ (by omega)
    have hv : (st'.getD 0 (0, .one)).1 = (rc.getD 44 []).getD 0 0 := by
      rw [← h5.2]
      obtain ⟨x, y, z, rfl⟩ := List.length_eq_three.mp hl5
      rfl
    refine (Cmp.allocInput' rfl).bind fun out cs6 e6 h6 => (Cmp.enforce ?_).bind fun _ cs7 e7 _ =>
      Cmp.pure ?_
    · intro w ho hw
      have q := (VarIs.mono (ok_getD h5.1 (by omega : 0 < st'.length)) e6) w hw
      rw [LC.eval_addTerm, LC.eval_addVar, LC.eval_addVar, q, h6 w hw, ho]
      simp
    · rw [← hv]; exact h6.mono e7

end Rescue

namespace Poseidon

theorem sboxLayer_cmp {cs : CS F} (st : List (Cell F)) (hl : st.length = 3) (i : Nat)
    (hok : ∀ e ∈ st, Cell.Ok cs e) :
    Cmp cs (sboxLayer st i) (fun r cs' => (∀ e ∈ r, Cell.Ok cs' e) ∧ r.length = 3 ∧
      (isFull i = true → ∀ e ∈ r, e.1 = 0)) := by
  unfold sboxLayer
  by_cases hi : isFull i = true
  · rw [if_pos hi]
    exact (powLayer_zero _ st).weaken fun r cs' _ h =>
      ⟨fun e he => (h.1 e he).1, h.2.trans hl, fun _ e he => (h.1 e he).2⟩
  · rw [if_neg hi]
    refine (Pow.pow_cmp _ _ _).bind fun r cs2 e2 h2 => Cmp.pure ⟨?_, by simpa using hl,
      fun h => absurd h hi⟩
    intro e he
    rcases List.mem_or_eq_of_mem_set he with h | rfl
    · exact (hok e h).mono e2
    · show VarIs _ _ _
      rw [h2.1]; exact h2.2

theorem circuitRound_cmp {cs : CS F} (ark mds : List (List F)) (hm : mds.length = 3)
    (st : List (Cell F)) (hl : st.length = 3) (i : Nat)
    (hok : ∀ e ∈ st, Cell.Ok cs e) (hc : (ark.getD i []).length = 3) :
    Cmp cs (circuitRound ark mds st i) (fun r cs' => (∀ e ∈ r, Cell.Ok cs' e) ∧ r.length = 3 ∧
      (isFull i = true → r.map Prod.fst = [0, 0, 0])) := by
  unfold circuitRound
  refine (addConstants_cmp _ st hok).bind fun st1 cs1 e1 h1 => ?_
  have hl1 : st1.length = 3 := by
    have := congrArg List.length h1.2
    rw [List.length_map, List.length_map, List.length_zip, hc, hl] at this
    simpa using this
  refine (sboxLayer_cmp st1 hl1 i h1.1).bind fun st2 cs2 e2 h2 => ?_
  by_cases hi : isFull i = true
  · exact (mixLayer_zero mds hm st2 h2.2.1 h2.1 (h2.2.2 hi)).weaken fun r cs' _ h =>
      ⟨h.1, by have := congrArg List.length h.2; simpa using this, fun _ => h.2⟩
  · exact (mixLayer_cmp mds hm st2 h2.2.1 h2.1).weaken fun r cs' _ h =>
      ⟨h.1, by have := congrArg List.length h.2; simpa [hm] using this, fun h => absurd h hi⟩

/-- The public output of an honest run is zero, whatever is hashed. -/
theorem circuit_cmp {cs : CS F} (ark mds : List (List F)) (hm : mds.length = 3)
    (hc : ∀ i < 91, (ark.getD i []).length = 3) (xl xr : F) :
    Cmp cs (circuit ark mds xl xr) (fun out cs' => VarIs cs' out 0) := by
  unfold circuit
  refine (Cmp.alloc' rfl).bind fun a cs1 e1 h1 => (Cmp.alloc' rfl).bind fun b cs2 e2 h2 =>
    (Cmp.alloc' rfl).bind fun c cs3 e3 h3 => ?_
  have er : List.range ROUNDS = List.range 90 ++ [90] := List.range_succ
  rw [er, List.foldlM_append]
  refine Cmp.bind (P := fun st cs' => (∀ e ∈ st, Cell.Ok cs' e) ∧ st.map Prod.fst = [0, 0, 0]) ?_
    fun st' cs5 e5 h5 => ?_
  · refine Cmp.bind (P := fun st cs' => (∀ e ∈ st, Cell.Ok cs' e) ∧ st.length = 3) ?_
      fun st cs4 e4 h4 => ?_
    · refine Cmp.foldlM (Rs := fun cs (st : List (Cell F)) (_ : Unit) =>
        (∀ e ∈ st, Cell.Ok cs e) ∧ st.length = 3) (g := fun _ _ => ()) (t := ()) _
        (fun cs st _ i hi h => (circuitRound_cmp ark mds hm st h.2 i h.1
          (hc i (by have := List.mem_range.mp hi; omega))).weaken fun r cs' _ hr =>
            ⟨hr.1, hr.2.1⟩) ⟨?_, rfl⟩
      intro e he
      simp only [List.mem_cons, List.not_mem_nil, or_false] at he
      rcases he with rfl | rfl | rfl
      · exact (h1.mono e2).mono e3
      · exact h2.mono e3
      · exact h3
    · rw [List.foldlM_cons]
      exact (circuitRound_cmp ark mds hm st h4.2 90 h4.1 (hc 90 (by omega))).bind
        fun r cs' _ hr => Cmp.pure ⟨hr.1, hr.2.2 (by decide)⟩
  · have hl5 : st'.length = 3 := by
      have := congrArg List.length h5.2
      simpa using this
    have hv : (st'.getD 0 (0, .one)).1 = 0 := by
      obtain ⟨x, y, z, rfl⟩ := List.length_eq_three.mp hl5
      have := h5.2
      simp only [List.map_cons, List.map_nil, List.cons.injEq, and_true] at this
      exact this.1
    refine (Cmp.allocInput' rfl).bind fun out cs6 e6 h6 => (Cmp.enforce ?_).bind fun _ cs7 e7 _ =>
      Cmp.pure ?_
    · intro w ho hw
      have q := (VarIs.mono (ok_getD h5.1 (by omega : 0 < st'.length)) e6) w hw
      rw [LC.eval_addTerm, LC.eval_addVar, LC.eval_addVar, q, h6 w hw, ho]
      simp
    · rw [← hv]; exact h6.mono e7

end Poseidon
end Zkp
