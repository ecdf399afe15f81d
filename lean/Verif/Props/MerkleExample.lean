/- C115: the Merkle membership circuits of the examples. -/
import Verif.Model.MerkleExample
import Verif.Props.Cbmt

set_option linter.unusedSectionVars false
set_option linter.unusedSimpArgs false

namespace Zkp.Merkle

open Cbmt CbmtGadget

variable {F : Type} [Field F] {O V : Type}

/-! ### What the gadget needs to know of a hash, and what follows -/

/-- `K cs o v`: in the run that led to `cs` the output `o` stands for the value `v`, whose components
are `enc v`.  The hash computes `hf` and leaves its output free within `T`. -/
structure Hashing (H : HashI F O) (enc : V → List F) (K : CS F → O → V → Prop) (hf : V → V → V)
    (T : List F → Prop) : Prop where
  mono : ∀ {cs cs' : CS F} {o : O} {v : V}, cs.Ext cs' → K cs o v → K cs' o v
  vals : ∀ {cs : CS F} {o : O} {v : V}, K cs o v → H.vals o = (enc v).map some
  vars : ∀ {cs : CS F} {o : O} {v : V}, K cs o v → List.Forall₂ (VarIs cs) (H.vars o) (enc v)
  honest : ∀ {cs : CS F} {a b : O} {x y : V}, K cs a x → K cs b y →
    Cmp cs (H.hashEnforce [a, b]) (fun o cs' => K cs' o (hf x y))
  free : ∀ {cs : CS F} {a b : O} {x y : V}, K cs a x → K cs b y → cs.Good →
    ∃ o cs', H.hashEnforce [a, b] cs = .ok (o, cs') ∧ ∀ t, T t → ∃ w : Index → F, w .one = 1 ∧
      cs'.Sat w ∧ cs.Agrees w ∧ (H.vars o).map w = t

theorem varIs_mono {cs cs' : CS F} (e : cs.Ext cs') {l : List Index} {xs : List F}
    (h : List.Forall₂ (VarIs cs) l xs) : List.Forall₂ (VarIs cs') l xs :=
  h.imp fun _ _ h => h.mono e

theorem varIs_getD {cs : CS F} {l : List Index} {xs : List F} (h : List.Forall₂ (VarIs cs) l xs)
    {j : Nat} (hj : j < l.length) : VarIs cs (l.getD j .one) (xs.getD j 0) := by
  induction h generalizing j with
  | nil => simp at hj
  | cons h _ ih =>
    cases j with
    | zero => exact h
    | succ j => exact ih (by simpa using hj)

theorem select_cmp {H : HashI F O} {enc : V → List F} {K : CS F → O → V → Prop} {hf : V → V → V}
    {T : List F → Prop} (h : Hashing H enc K hf T) {cs : CS F} (i : Nat) {a b : O} {x y : V}
    (ha : K cs a x) (hb : K cs b y) : Cmp cs (select H (a, i) b) (fun _ _ => True) := by
  unfold select
  refine (Cmp.alloc' rfl).bind fun l cs1 e1 h1 => ?_
  have hv : (if isLeft i then H.vals a else H.vals b) =
      (if isLeft i then enc x else enc y).map some := by
    split
    · exact h.vals ha
    · exact h.vals hb
  simp only [hv]
  have hm := Cmp.mapM (cs := cs1) (f := fun v : Option F => Zkp.alloc (okOr v))
    (P := fun _ v => v.isSome) (R := fun cs v r => ∃ z, v = some z ∧ VarIs cs r z)
    (fun _ _ _ _ h => h) (fun _ _ _ _ e ⟨z, hz, hr⟩ => ⟨z, hz, hr.mono e⟩)
    (fun cs v hv => by
      obtain ⟨z, rfl⟩ := Option.isSome_iff_exists.mp hv
      exact (Cmp.alloc' rfl).weaken fun r _ _ hr => ⟨z, rfl, hr⟩)
    ((if isLeft i then enc x else enc y).map some) (by simp)
  refine hm.bind fun ins cs2 e2 h2 => ?_
  have hin : List.Forall₂ (VarIs cs2) ins (if isLeft i then enc x else enc y) := by
    rw [List.forall₂_map_left_iff] at h2
    refine (h2.imp fun z r hr => ?_).flip
    obtain ⟨z', hz, hr⟩ := hr
    cases hz
    exact hr
  have hA := varIs_mono (e1.trans e2) (h.vars ha)
  have hB := varIs_mono (e1.trans e2) (h.vars hb)
  refine Cmp.forM (P := fun cs j => cs2.Ext cs ∧ j < (H.vars a).length ∧ j < (H.vars b).length)
    (fun _ _ _ e h => ⟨h.1.trans e, h.2⟩) (fun cs3 j hj => ?_) _ (fun j hj => ⟨CS.Ext.refl _, by
      simp only [List.mem_range] at hj; omega⟩)
  obtain ⟨e3, hja, hjb⟩ := hj
  have hji : j < ins.length := by
    rw [hin.length_eq]
    split
    · rw [← hA.length_eq]; exact hja
    · rw [← hB.length_eq]; exact hjb
  have h3 := varIs_getD hA hja
  have h4 := varIs_getD hB hjb
  have h5 := varIs_getD hin hji
  unfold selectConstraint
  rw [List.getElem?_eq_getElem hji]
  refine Cmp.enforce fun w ho hw => ?_
  have hw2 := e3.agrees hw
  have e5 : w ins[j] = (if isLeft i then enc x else enc y).getD j 0 := by
    have := h5 w hw2
    rwa [List.getD_eq_getElem _ _ hji] at this
  have e0 := h1 w (e2.agrees hw2)
  simp only [LC.eval_addVar, LC.eval_subVar, LC.eval_zero, zero_add, h3 w hw2, h4 w hw2, e5, e0]
  cases isLeft i <;> simp

theorem step_cmp {H : HashI F O} {enc : V → List F} {K : CS F → O → V → Prop} {hf : V → V → V}
    {T : List F → Prop} (h : Hashing H enc K hf T) {cs : CS F} (i : Nat) {a b : O} {x y : V}
    (ha : K cs a x) (hb : K cs b y) :
    Cmp cs (step H (a, i) b) (fun st cs' => K cs' st.1 (rootStep hf (x, i) y).1 ∧
      st.2 = (rootStep hf (x, i) y).2) := by
  unfold step
  refine (select_cmp h i ha hb).bind fun _ cs1 e1 _ => ?_
  unfold rootStep
  simp only
  cases isLeft i
  · exact (h.honest (h.mono e1 hb) (h.mono e1 ha)).bind fun p cs2 _ hp => Cmp.pure ⟨hp, rfl⟩
  · exact (h.honest (h.mono e1 ha) (h.mono e1 hb)).bind fun p cs2 _ hp => Cmp.pure ⟨hp, rfl⟩

/-- The gadget computes the native path, `MerkleProof::root`. -/
theorem path_cmp {H : HashI F O} {enc : V → List F} {K : CS F → O → V → Prop} {hf : V → V → V}
    {T : List F → Prop} (h : Hashing H enc K hf T) {sibs : List O} :
    ∀ {ys : List V} {cs : CS F} {i : Nat} {a : O} {x : V}, K cs a x →
      List.Forall₂ (K cs) sibs ys → Cmp cs (sibs.foldlM (step H) (a, i)) (fun st cs' =>
        K cs' st.1 (ys.foldl (rootStep hf) (x, i)).1 ∧ st.2 = (ys.foldl (rootStep hf) (x, i)).2) := by
  induction sibs with
  | nil => intro ys cs i a x ha hs; cases hs; exact Cmp.pure ⟨ha, rfl⟩
  | cons s sibs ih =>
    intro ys cs i a x ha hs
    cases hs with
    | cons h1 h2 =>
      rw [List.foldlM_cons]
      refine (step_cmp h i ha h1).bind fun st cs1 e1 h3 => ?_
      obtain ⟨o, j⟩ := st
      obtain ⟨h3, h4⟩ := h3
      simp only at h3 h4
      have := ih (i := j) h3 (h2.imp fun _ _ h' => h.mono e1 h')
      rw [List.foldl_cons]
      rw [h4] at this ⊢
      exact this

theorem compare_cmp {cs : CS F} {as bs : List Index} {xs : List F}
    (ha : List.Forall₂ (VarIs cs) as xs) (hb : List.Forall₂ (VarIs cs) bs xs) :
    Cmp cs ((as.zip bs).forM fun e => enforce (LC.zero.addVar e.1) (LC.zero.addVar .one)
      (LC.zero.addVar e.2)) (fun _ _ => True) := by
  have hmem : ∀ e ∈ as.zip bs, ∃ z, VarIs cs e.1 z ∧ VarIs cs e.2 z := by
    induction ha generalizing bs with
    | nil => simp
    | cons h _ ih =>
      cases hb with
      | cons h' hb' =>
        intro e he
        rw [List.zip_cons_cons, List.mem_cons] at he
        rcases he with rfl | he
        · exact ⟨_, h, h'⟩
        · exact ih hb' e he
  refine Cmp.forM (P := fun (cs : CS F) (e : Index × Index) => ∃ z, VarIs cs e.1 z ∧ VarIs cs e.2 z)
    (fun _ _ _ e h => ⟨h.choose, h.choose_spec.1.mono e, h.choose_spec.2.mono e⟩)
    (fun cs e h => Cmp.enforce fun w ho hw => ?_) _ hmem
  simp [ho, h.choose_spec.1 w hw, h.choose_spec.2 w hw]

/-- Completeness: with the root of the native path, the gadget succeeds with a satisfied system. -/
theorem membership_cmp {H : HashI F O} {enc : V → List F} {K : CS F → O → V → Prop} {hf : V → V → V}
    {T : List F → Prop} (h : Hashing H enc K hf T) {cs : CS F} (i : Nat) {sibs : List O} {ys : List V}
    {leaf root : O} {x r : V} (hl : K cs leaf x) (hr : K cs root r) (hs : List.Forall₂ (K cs) sibs ys)
    (hroot : (ys.foldl (rootStep hf) (x, i)).1 = r) :
    Cmp cs (setMembership H i sibs root leaf) (fun _ _ => True) := by
  unfold setMembership
  refine (path_cmp h hl hs).bind fun st cs1 e1 h1 => ?_
  rw [hroot] at h1
  exact compare_cmp (h.vars h1.1) (varIs_mono e1 (h.vars hr))

theorem compare_run (l : List (Index × Index)) (cs : CS F) :
    (l.forM fun e => (enforce (LC.zero.addVar e.1) (LC.zero.addVar .one)
      (LC.zero.addVar e.2) : Synth F Unit)) cs = .ok ((), { cs with
        constraints := cs.constraints ++ l.map fun e => ⟨LC.zero.addVar e.1, LC.zero.addVar .one,
          LC.zero.addVar e.2⟩ }) := by
  induction l generalizing cs with
  | nil => simp [pure, StateT.pure, Except.pure]
  | cons e l ih =>
    rw [List.forM]
    simp only [bind, StateT.bind, Except.bind, enforce] at ih ⊢
    rw [ih]
    simp

theorem forall₂_snoc {α β : Type} {R : α → β → Prop} {l : List α} {x : α} :
    ∀ {ys : List β}, List.Forall₂ R (l ++ [x]) ys →
      ∃ ys1 y, ys = ys1 ++ [y] ∧ List.Forall₂ R l ys1 ∧ R x y := by
  induction l with
  | nil => intro ys h; cases h with | cons h hn => cases hn; exact ⟨[], _, rfl, .nil, h⟩
  | cons a l ih =>
    intro ys h
    cases h with
    | cons h hn =>
      obtain ⟨ys1, y, rfl, h1, h2⟩ := ih hn
      exact ⟨_ :: ys1, y, rfl, .cons h h1, h2⟩

/-- The failure: whatever the leaf, the siblings (at least one), the position and the root, the
gadget succeeds and its constraints can be satisfied without changing a variable allocated before. -/
theorem membership_any_root {H : HashI F O} {enc : V → List F} {K : CS F → O → V → Prop}
    {hf : V → V → V} {T : List F → Prop} (h : Hashing H enc K hf T) {cs : CS F} (hg : cs.Good)
    (i : Nat) {sibs : List O} {ys : List V} {leaf root : O} {x r : V} (hne : sibs ≠ [])
    (hl : K cs leaf x) (hr : K cs root r) (hs : List.Forall₂ (K cs) sibs ys) (hT : T (enc r)) :
    ∃ cs', setMembership H i sibs root leaf cs = .ok ((), cs') ∧ ∃ w : Index → F, w .one = 1 ∧
      cs'.Sat w ∧ cs.Agrees w := by
  obtain ⟨init, s, rfl⟩ : ∃ init s, sibs = init ++ [s] :=
    ⟨sibs.dropLast, sibs.getLast hne, (List.dropLast_append_getLast hne).symm⟩
  obtain ⟨ys1, y, rfl, h1, h3⟩ := forall₂_snoc hs
  obtain ⟨st, cs1, hrun, e1, g1, hst, -⟩ := path_cmp h (i := i) hl h1 hg
  obtain ⟨o, j⟩ := st
  simp only at hst
  have hs1 := h.mono e1 h3
  obtain ⟨⟨⟩, cs2, hsel, e2, g2, -⟩ := select_cmp h j hst hs1 g1
  obtain ⟨out, cs3, hh, hfree⟩ : ∃ out cs3, H.hashEnforce (if isLeft j then [o, s] else [s, o]) cs2 =
      .ok (out, cs3) ∧ ∀ t, T t → ∃ w : Index → F, w .one = 1 ∧ cs3.Sat w ∧ cs2.Agrees w ∧
        (H.vars out).map w = t := by
    cases isLeft j
    · exact h.free (h.mono e2 hs1) (h.mono e2 hst) g2
    · exact h.free (h.mono e2 hst) (h.mono e2 hs1) g2
  obtain ⟨w, ho, hsat, hag, hw⟩ := hfree _ hT
  refine ⟨{ cs3 with
    constraints := cs3.constraints ++ (((H.vars out).zip (H.vars root)).map
      (fun e => ⟨LC.zero.addVar e.1, LC.zero.addVar .one, LC.zero.addVar e.2⟩)) }, ?_, w, ho, ?_,
    e1.agrees (e2.agrees hag)⟩
  · unfold setMembership
    rw [List.foldlM_append]
    refine Synth.bind_ok.mpr ⟨(out, parent j), cs3, Synth.bind_ok.mpr ⟨(o, j), cs1, hrun, ?_⟩,
      compare_run _ _⟩
    rw [List.foldlM_cons]
    refine Synth.bind_ok.mpr ⟨(out, parent j), cs3, ?_, rfl⟩
    exact Synth.bind_ok.mpr ⟨(), cs2, hsel, Synth.bind_ok.mpr ⟨out, cs3, hh, rfl⟩⟩
  · intro k hk
    simp only [List.mem_append, List.mem_map] at hk
    rcases hk with hk | ⟨e, he, rfl⟩
    · exact hsat k hk
    · have hrv := varIs_mono (e1.trans e2) (h.vars hr)
      have : w e.1 = w e.2 := by
        rw [← hw] at hrv
        obtain ⟨m, hm, rfl⟩ := List.getElem_of_mem he
        simp only [List.length_zip] at hm
        simp only [List.getElem_zip]
        have hm1 : m < (H.vars root).length := by omega
        have := varIs_getD hrv hm1 w hag
        rw [List.getD_eq_getElem _ _ hm1, List.getD_eq_getElem _ _ (by simp; omega)] at this
        simpa using this.symm
      simp [R1C.Holds, ho, this]

theorem unwrapS_cmp {α : Type} {cs : CS F} {m : Synth F α} {Q : α → CS F → Prop} (h : Cmp cs m Q) :
    Cmp cs (unwrapS m) Q := by
  intro hg
  obtain ⟨a, cs', h1, h2⟩ := h hg
  exact ⟨a, cs', by simp [unwrapS, h1], h2⟩

theorem unwrapS_ok {α : Type} {cs cs' : CS F} {m : Synth F α} {a : α} (h : m cs = .ok (a, cs')) :
    unwrapS m cs = .ok (a, cs') := by simp [unwrapS, h]

/-! ### SHA-256 -/

/-- The output stands for the bits. -/
def KSha (cs : CS F) (o : BitsOut) (bits : List Bool) : Prop :=
  ∃ bs, o.value = some bs ∧ List.Forall₂ (fun b x => b.Known cs x) bs bits ∧
    List.Forall₂ (VarIs cs) o.vars (bits.map boolF) ∧ bits.length % 8 = 0

theorem freshBits_cmp (bs : List Boolean) : ∀ {xs : List Bool} {cs : CS F},
    List.Forall₂ (fun b x => b.Known cs x) bs xs →
    Cmp cs (bs.mapM fun b => (do
          let a ← unwrapS (AllocatedBit.alloc b.getValue)
          return a.variable_ : Synth F Index))
      (fun vs cs' => List.Forall₂ (VarIs cs') vs (xs.map boolF)) := by
  induction bs with
  | nil => intro xs cs h; cases h; exact Cmp.pure .nil
  | cons b bs ih =>
    intro xs cs h
    cases h with
    | cons h1 h2 =>
      rw [List.mapM_cons]
      rename_i x _
      have hc : Cmp cs (unwrapS (AllocatedBit.alloc b.getValue) : Synth F AllocatedBit)
          (fun r cs' => (Boolean.is r).Known cs' x) := by
        rw [h1.1]; exact unwrapS_cmp (AllocatedBit.alloc_cmp x)
      refine (hc.bind (Q := fun v cs' => VarIs cs' v (boolF x))
        fun a cs1 e1 ha => Cmp.pure ha.2).bind fun v cs1 e1 hv => ?_
      refine (ih (h2.imp fun _ _ h => h.mono e1)).bind fun vs cs2 e2 hvs => Cmp.pure ?_
      exact .cons (hv.mono e2) hvs

theorem sha_honest (p : Nat) [Fact p.Prime] (hp : 64 ≤ Nat.size p) {cs : CS (ZMod p)} {a b : BitsOut}
    {x y : List Bool} (ha : KSha cs a x) (hb : KSha cs b y) :
    Cmp cs (Sha.hashEnforce (capacity p) [a, b]) (fun o cs' => KSha cs' o (Sha256.hash (x ++ y))) := by
  obtain ⟨as, ha1, ha2, -, ha3⟩ := ha
  obtain ⟨bs, hb1, hb2, -, hb3⟩ := hb
  have hm : [a, b].mapM (fun o => o.value) = some [as, bs] := by
    simp [List.mapM_cons, List.mapM_nil, ha1, hb1]
  have hin : List.Forall₂ (fun b x => b.Known cs x) (as ++ bs) (x ++ y) := List.rel_append ha2 hb2
  have hc := (Sha.sha256_impl (capOK_zmod p) (by unfold capacity; omega) (as ++ bs) (x ++ y)
    hin.length_eq (by rw [hin.length_eq, List.length_append]; omega)).cmp cs hin
  have : Sha.hashEnforce (capacity p) [a, b] = (do
    let booleans ← Sha.sha256 (capacity p) (as ++ bs)
    let vars ← booleans.mapM fun b => (do
      let a ← unwrapS (AllocatedBit.alloc b.getValue)
      return a.variable_ : Synth (ZMod p) Index)
    return (⟨some booleans, vars⟩ : BitsOut) : Synth (ZMod p) BitsOut) := by
    funext cs
    unfold Sha.hashEnforce
    rw [hm]
    simp
  rw [this]
  refine hc.bind fun o cs1 e1 ho => (freshBits_cmp o ho).bind fun vs cs2 e2 hv => Cmp.pure ?_
  exact ⟨o, rfl, ho.imp fun _ _ (h : Boolean.Known _ _ _) => h.mono e2, hv, by
    simp [Sha256.hash, Sha256.St.toBits, bitsBE, length_bitsLE]⟩

theorem sha_hashing (p : Nat) [Fact p.Prime] (hp : 64 ≤ Nat.size p) :
    Hashing (shaHash (capacity p)) (fun bits : List Bool => bits.map (boolF : Bool → ZMod p)) KSha
      (fun x y => Sha256.hash (x ++ y)) (fun t => ∃ bits : List Bool, bits.length = 256 ∧
        t = bits.map boolF) where
  mono e := fun ⟨bs, h1, h2, h3, h4⟩ => ⟨bs, h1, h2.imp fun _ _ h => h.mono e, varIs_mono e h3, h4⟩
  vals := by
    rintro cs o bits ⟨bs, h1, h2, -⟩
    simp only [shaHash, BitsOut.values, h1]
    clear h1
    induction h2 with
    | nil => rfl
    | cons h _ ih => simp only [List.map_cons, ih, h.1]; rfl
  vars := fun ⟨bs, _, _, h3, _⟩ => h3
  honest := sha_honest p hp
  free := by
    rintro cs a b x y ⟨as, ha1, ha2, -, ha3⟩ ⟨bs, hb1, hb2, -, hb3⟩ hg
    have hin : List.Forall₂ (fun b x => b.Known cs x) [as, bs].flatten (x ++ y) := by
      simpa using List.rel_append ha2 hb2
    obtain ⟨out, cs', h1, h2⟩ := C19_sha_output_free p hp [a, b] [as, bs] (by simp [ha1, hb1]) cs hg
      (x ++ y) (by rw [List.length_append]; omega) hin
    refine ⟨out, cs', h1, ?_⟩
    rintro t ⟨bits, h3, rfl⟩
    exact h2 bits h3

theorem hashBits_length (bytes : List UInt8) : (hashBits bytes).length = 8 * bytes.length := by
  induction bytes with
  | nil => rfl
  | cons b l ih => simp only [hashBits, List.flatMap_cons, List.length_append] at ih ⊢; simp [ih]; omega

theorem allocBit_cmp {cs : CS F} (v : Bool) :
    Cmp cs (AllocatedBit.alloc (some v) : Synth F AllocatedBit)
      (fun r cs' => (Boolean.is r).Known cs' v ∧ cs'.inputs = cs.inputs ∧
        cs'.aux = cs.aux ++ [boolF v]) := by
  intro hg
  obtain ⟨r, cs', h1, h2, h3, h4⟩ := AllocatedBit.alloc_cmp v hg
  refine ⟨r, cs', h1, h2, h3, h4, ?_⟩
  have h5 := allocBit_run cs hg.proving v
  rw [unwrapS_ok h1] at h5
  have := (Prod.mk.inj (Except.ok.inj h5)).2
  rw [this]
  exact ⟨rfl, rfl⟩

theorem allocInputBit_cmp {cs : CS F} (v : Bool) :
    Cmp cs (AllocatedBit.allocInput (some v) : Synth F AllocatedBit)
      (fun r cs' => (Boolean.is r).Known cs' v ∧ cs'.inputs = cs.inputs ++ [boolF v] ∧
        cs'.aux = cs.aux) := by
  intro hg
  obtain ⟨r, cs', h1, h2, h3, h4⟩ := AllocatedBit.allocInput_cmp v hg
  refine ⟨r, cs', h1, h2, h3, h4, ?_⟩
  have h5 : AllocatedBit.allocInput (some v) cs = .ok (⟨.input cs.inputs.length, some v⟩,
      { cs with inputs := cs.inputs ++ [boolF v],
                constraints := cs.constraints ++
                  [⟨(LC.zero.addVar .one).subVar (.input cs.inputs.length),
                    LC.zero.addVar (.input cs.inputs.length), LC.zero⟩] }) := by
    simp [AllocatedBit.allocInput, Zkp.allocInput, bitClosure, okOr, hg.proving, bind, StateT.bind,
      Except.bind, pure, StateT.pure, Except.pure, enforce]
  rw [h1] at h5
  have := (Prod.mk.inj (Except.ok.inj h5)).2
  rw [this]
  exact ⟨rfl, rfl⟩

theorem allocBits_cmp (bits : List Bool) : ∀ {cs : CS F},
    Cmp cs (bits.mapM fun v => (AllocatedBit.alloc (some v) : Synth F AllocatedBit))
      (fun r cs' => List.Forall₂ (fun a v => (Boolean.is a).Known cs' v) r bits ∧
        cs'.inputs = cs.inputs ∧ cs'.aux = cs.aux ++ bits.map boolF) := by
  induction bits with
  | nil => intro cs; exact Cmp.pure ⟨.nil, rfl, by simp⟩
  | cons v bits ih =>
    intro cs
    rw [List.mapM_cons]
    refine (allocBit_cmp v).bind fun a cs1 e1 h1 => ih.bind fun r cs2 e2 h2 => Cmp.pure ?_
    exact ⟨.cons (h1.1.mono e2) h2.1, h2.2.1.trans h1.2.1, by rw [h2.2.2, h1.2.2]; simp⟩

theorem allocInputBits_cmp (bits : List Bool) : ∀ {cs : CS F},
    Cmp cs (bits.mapM fun v => (AllocatedBit.allocInput (some v) : Synth F AllocatedBit))
      (fun r cs' => List.Forall₂ (fun a v => (Boolean.is a).Known cs' v) r bits ∧
        cs'.inputs = cs.inputs ++ bits.map boolF ∧ cs'.aux = cs.aux) := by
  induction bits with
  | nil => intro cs; exact Cmp.pure ⟨.nil, by simp, rfl⟩
  | cons v bits ih =>
    intro cs
    rw [List.mapM_cons]
    refine (allocInputBit_cmp v).bind fun a cs1 e1 h1 => ih.bind fun r cs2 e2 h2 => Cmp.pure ?_
    exact ⟨.cons (h1.1.mono e2) h2.1, by rw [h2.2.1, h1.2.1]; simp, h2.2.2.trans h1.2.2⟩

theorem kSha_of {cs : CS F} {r : List AllocatedBit} {bytes : List UInt8}
    (h : List.Forall₂ (fun a v => (Boolean.is a).Known cs v) r (hashBits bytes)) :
    KSha cs ⟨some (r.map .is), r.map (·.variable_)⟩ (hashBits bytes) := by
  refine ⟨_, rfl, ?_, ?_, by rw [hashBits_length]; omega⟩
  · rw [List.forall₂_map_left_iff]; exact h
  · rw [List.forall₂_map_left_iff, List.forall₂_map_right_iff]
    exact h.imp fun a v ha w hw => ha.2 w hw

theorem bitsAlloc_cmp {cs : CS F} (bytes : List UInt8) :
    Cmp cs (unwrapS (BitsOut.alloc bytes)) (fun o cs' => KSha cs' o (hashBits bytes) ∧
      cs'.inputs = cs.inputs ∧ cs'.aux = cs.aux ++ (hashBits bytes).map boolF) :=
  unwrapS_cmp ((allocBits_cmp _).bind fun _ _ _ h => Cmp.pure ⟨kSha_of h.1, h.2⟩)

theorem bitsAllocInput_cmp {cs : CS F} (bytes : List UInt8) :
    Cmp cs (unwrapS (BitsOut.allocInput bytes)) (fun o cs' => KSha cs' o (hashBits bytes) ∧
      cs'.inputs = cs.inputs ++ (hashBits bytes).map boolF ∧ cs'.aux = cs.aux) :=
  unwrapS_cmp ((allocInputBits_cmp _).bind fun _ _ _ h => Cmp.pure ⟨kSha_of h.1, h.2⟩)

theorem KSha.mono {cs cs' : CS F} {o : BitsOut} {bits : List Bool} (e : cs.Ext cs') :
    KSha cs o bits → KSha cs' o bits :=
  fun ⟨bs, h1, h2, h3, h4⟩ => ⟨bs, h1, h2.imp fun _ _ h => h.mono e, varIs_mono e h3, h4⟩

theorem lemmasSha_cmp (lemmas : List (List UInt8)) : ∀ {cs : CS F},
    Cmp cs (lemmas.mapM fun v => (unwrapS (BitsOut.alloc v) : Synth F BitsOut)) (fun os cs' =>
      List.Forall₂ (KSha cs') os (lemmas.map hashBits) ∧ cs'.inputs = cs.inputs ∧
      cs'.aux = cs.aux ++ (lemmas.flatMap hashBits).map boolF) := by
  induction lemmas with
  | nil => intro cs; exact Cmp.pure ⟨.nil, rfl, by simp⟩
  | cons v l ih =>
    intro cs
    rw [List.mapM_cons]
    refine (bitsAlloc_cmp v).bind fun a cs1 e1 h1 => ih.bind fun r cs2 e2 h2 => Cmp.pure ?_
    exact ⟨.cons (h1.1.mono e2) h2.1, h2.2.1.trans h1.2.1, by rw [h2.2.2, h1.2.2]; simp⟩

/-- The state the membership gadget starts from. -/
theorem sha_start (lemmas : List (List UInt8)) (root leaf : List UInt8) :
    ∃ (r l : BitsOut) (ls : List BitsOut) (cs : CS F), cs.Good ∧ KSha cs r (hashBits root) ∧
      KSha cs l (hashBits leaf) ∧ List.Forall₂ (KSha cs) ls (lemmas.map hashBits) ∧
      cs.inputs = 1 :: (hashBits root).map boolF ∧
      cs.aux = ((leaf :: lemmas).flatMap hashBits).map boolF ∧
      ∀ (cap index : Nat), merkleSha cap index lemmas root leaf (CS.new true) =
        unwrapS (setMembership (shaHash cap) index ls r l) cs := by
  obtain ⟨r, cs1, h1, e1, g1, k1, i1, a1⟩ := bitsAllocInput_cmp (F := F) root CS.good_new
  obtain ⟨l, cs2, h2, e2, g2, k2, i2, a2⟩ := bitsAlloc_cmp (F := F) leaf g1
  obtain ⟨ls, cs3, h3, e3, g3, k3, i3, a3⟩ := lemmasSha_cmp (F := F) lemmas g2
  refine ⟨r, l, ls, cs3, g3, k1.mono (e2.trans e3), k2.mono e3, k3, ?_, ?_, ?_⟩
  · rw [i3, i2, i1]; rfl
  · rw [a3, a2, a1]; simp [CS.new]
  · intro cap index
    simp only [merkleSha, bind, StateT.bind, Except.bind, h1, h2, h3]

/-- The bits of a byte string as the standard reads it: the first bit of a byte is its most significant
one (FIPS 180-4, 3.1). -/
def msbBits (bytes : List UInt8) : List Bool :=
  bytes.flatMap fun b => [128, 64, 32, 16, 8, 4, 2, 1].map fun m => b.toNat / m % 2 == 1

theorem byteBits_eq : ∀ x : Fin 256,
    ((List.range 8).reverse.map fun i => (UInt8.ofFin x).toNat.testBit i) =
      [128, 64, 32, 16, 8, 4, 2, 1].map fun m => (UInt8.ofFin x).toNat / m % 2 == 1 := by
  decide +kernel

theorem hashBits_eq : hashBits = msbBits := by
  funext bytes
  unfold hashBits msbBits
  congr 1
  funext b
  exact byteBits_eq b.toFin

/-- The property as stated, SHA-256 example: an assignment that satisfies the circuit recorded for a
leaf, siblings, a position and a public root, and gives them these values, exists only if the native
check (`MerkleProof::verify`) accepts.  `merge` is the external SHA-256 of the example. -/
def C115_sha_statement (p : Nat) [Fact p.Prime] (merge : List UInt8 → List UInt8 → List UInt8) : Prop :=
  ∀ (index : Nat) (lemmas : List (List UInt8)) (root leaf : List UInt8) (cs : CS (ZMod p)),
    merkleSha (capacity p) index lemmas root leaf (CS.new true) = .ok ((), cs) →
    ∀ w : Index → ZMod p, w .one = 1 → cs.Sat w →
      (∀ i v, ((msbBits root).map boolF)[i]? = some v → w (.input (i + 1)) = v) →
      (∀ i v, (((leaf :: lemmas).flatMap msbBits).map boolF)[i]? = some v → w (.aux i) = v) →
      (Cbmt.Proof.mk index lemmas).verify merge root leaf = true

/-- Violation, SHA-256: for every leaf, all siblings (at least one), every position and every root of
32 bytes, the circuit of the example has a satisfying assignment with exactly these values. -/
theorem C115_sha_any_root (p : Nat) [Fact p.Prime] (hp : 64 ≤ Nat.size p) (index : Nat)
    (lemmas : List (List UInt8)) (root leaf : List UInt8) (hne : lemmas ≠ []) (hr : root.length = 32) :
    ∃ cs : CS (ZMod p), merkleSha (capacity p) index lemmas root leaf (CS.new true) = .ok ((), cs) ∧
      ∃ w : Index → ZMod p, w .one = 1 ∧ cs.Sat w ∧
        (∀ i v, ((msbBits root).map boolF)[i]? = some v → w (.input (i + 1)) = v) ∧
        (∀ i v, (((leaf :: lemmas).flatMap msbBits).map boolF)[i]? = some v → w (.aux i) = v) := by
  rw [← hashBits_eq]
  obtain ⟨r, l, ls, cs, hg, k1, k2, k3, hi, ha, hrun⟩ := sha_start (F := ZMod p) lemmas root leaf
  have hls : ls ≠ [] := by
    rintro rfl
    cases lemmas with
    | nil => exact hne rfl
    | cons a l => cases k3
  obtain ⟨cs', h1, w, ho, hs, hw⟩ := membership_any_root (sha_hashing p hp) hg index hls k2 k1 k3
    ⟨hashBits root, by rw [hashBits_length, hr], rfl⟩
  refine ⟨cs', by rw [hrun]; exact unwrapS_ok h1, w, ho, hs, ?_, ?_⟩
  · intro i v hv
    exact hw.1 (i + 1) v (by rw [hi]; simpa using hv)
  · intro i v hv
    exact hw.2 i v (by rw [ha]; exact hv)

theorem C115_sha_violated (p : Nat) [Fact p.Prime] (hp : 64 ≤ Nat.size p)
    (merge : List UInt8 → List UInt8 → List UInt8) : ¬ C115_sha_statement p merge := by
  intro h
  have key : ∀ root : List UInt8, root.length = 32 →
      (Cbmt.Proof.mk 1 [[7]]).verify merge root [9] = true := by
    intro root hr
    obtain ⟨cs, h1, w, h2, h3, h4, h5⟩ := C115_sha_any_root p hp 1 [[7]] root [9] (by simp) hr
    exact h 1 [[7]] root [9] cs h1 w h2 h3 h4 h5
  have a := key (List.replicate 32 0) rfl
  have b := key (List.replicate 32 1) rfl
  simp [Cbmt.Proof.verify, Cbmt.Proof.root] at a b
  rw [a] at b
  exact absurd b (by decide)

/-- What holds (`_partial`; missing: soundness): a path the native check accepts gives a satisfied
circuit, for every depth.  The external SHA-256 is assumed to be the standard's. -/
theorem C115_sha_complete_partial (p : Nat) [Fact p.Prime] (hp : 64 ≤ Nat.size p)
    (merge : List UInt8 → List UInt8 → List UInt8)
    (hmerge : ∀ a b, msbBits (merge a b) = Sha256.hash (msbBits a ++ msbBits b)) (index : Nat)
    (lemmas : List (List UInt8)) (root leaf : List UInt8)
    (hv : (Cbmt.Proof.mk index lemmas).verify merge root leaf = true) :
    ∃ cs : CS (ZMod p), merkleSha (capacity p) index lemmas root leaf (CS.new true) = .ok ((), cs) ∧
      cs.Sat cs.witness := by
  rw [← hashBits_eq] at hmerge
  obtain ⟨r, l, ls, cs, hg, k1, k2, k3, hi, ha, hrun⟩ := sha_start (F := ZMod p) lemmas root leaf
  have hroot : (lemmas.foldl (rootStep merge) (leaf, index)).1 = root := by
    unfold Cbmt.Proof.verify Cbmt.Proof.root at hv
    split at hv
    · rename_i x hx
      split at hx
      · simp at hx
      · simp only [Option.some.injEq] at hx
        simpa [hx] using hv
    · simp at hv
  have hfold : ∀ (lemmas : List (List UInt8)) (x : List UInt8) (i : Nat),
      (lemmas.map hashBits).foldl (rootStep fun x y => Sha256.hash (x ++ y)) (hashBits x, i) =
        (hashBits (lemmas.foldl (rootStep merge) (x, i)).1, (lemmas.foldl (rootStep merge) (x, i)).2) := by
    intro lemmas
    induction lemmas with
    | nil => intro x i; rfl
    | cons s l ih =>
      intro x i
      rw [List.map_cons, List.foldl_cons, List.foldl_cons]
      have : rootStep (fun x y => Sha256.hash (x ++ y)) (hashBits x, i) (hashBits s) =
          (hashBits (rootStep merge (x, i) s).1, (rootStep merge (x, i) s).2) := by
        unfold rootStep
        simp only
        split <;> simp [hmerge]
      rw [this]
      exact ih _ _
  obtain ⟨⟨⟩, cs', h1, -, g1, -⟩ := unwrapS_cmp (membership_cmp (sha_hashing p hp) index k2 k1 k3
    (by rw [hfold, hroot])) hg
  exact ⟨cs', by rw [hrun]; exact h1, g1.sat⟩

/-! ### MiMC -/

/-- The output stands for the field element. -/
def KField (cs : CS F) (o : FieldOut F) (x : F) : Prop := o.value = some x ∧ VarIs cs o.variable_ x

theorem mergeMimc_eq (p n : Nat) [Fact p.Prime] (hn : 0 < n) (hp : p ≤ 256 ^ n) (k : List (ZMod p))
    (hk : k.length = 322) (x y : ZMod p) : mergeMimc n k x y = mimcChain k [x, y] := by
  have : leBytes n x.val ++ leBytes n y.val = ([x] ++ [y]).flatMap fun v => leBytes n v.val := by simp
  unfold mergeMimc Mimc.hash Mimc.hashBytes
  rw [this, bytesToField_values p n hn hp, Mimc.hashElems_eq hk]
  rfl

theorem mimc_honest (p n : Nat) [Fact p.Prime] (hn : 0 < n) (hp : p ≤ 256 ^ n)
    (k : List (ZMod p)) (hk : k.length = 322) {cs : CS (ZMod p)} {a b : FieldOut (ZMod p)}
    {x y : ZMod p} (ha : a.value = some x) (hb : b.value = some y) :
    Cmp cs (Mimc.hashEnforce n k [a, b]) (fun o cs' => KField cs' o (mergeMimc n k x y)) := by
  intro hg
  have hbytes := paramBytes_ok n [a, b] [x, y] (by simp [ha, hb])
  have hh : Mimc.hashBytes n (([x] ++ [y]).flatMap fun v => leBytes n v.val) k =
      some (mimcChain k [x], y, mimcChain k ([x] ++ [y])) := by
    unfold Mimc.hashBytes
    rw [bytesToField_values p n hn hp, Mimc.hashElems_eq hk]
  obtain ⟨r, cs1, h1, e1, g1, _⟩ := Mimc.circuit_cmp k (cs := cs) (mimcChain k [x]) y hg
  obtain ⟨o, cs2, h2, e2, g2, h3⟩ :=
    (Cmp.alloc' (cs := cs1) (f := okOr (some (mimcChain k ([x] ++ [y])))) rfl) g1
  refine ⟨⟨some (mimcChain k [x, y]), o⟩, cs2, ?_, e1.trans e2, g2, ?_⟩
  · unfold Mimc.hashEnforce Mimc.mimc
    rw [hbytes]
    simp only [List.cons_append, List.nil_append] at hh h2
    simp only [hh, FieldOut.alloc]
    simp only [bind, StateT.bind, Except.bind, h1, pure, StateT.pure, Except.pure, h2]
  · rw [mergeMimc_eq p n hn hp k hk]
    exact ⟨rfl, h3⟩

theorem mimc_hashing (p n : Nat) [Fact p.Prime] (hn : 0 < n) (hp : p ≤ 256 ^ n) (k : List (ZMod p))
    (hk : k.length = 322) :
    Hashing (mimcHash n k) (fun x : ZMod p => [x]) KField (mergeMimc n k) (fun t => ∃ x, t = [x]) where
  mono e := fun ⟨h1, h2⟩ => ⟨h1, h2.mono e⟩
  vals := fun ⟨h1, _⟩ => by simp [mimcHash, h1]
  vars := fun ⟨_, h2⟩ => .cons h2 .nil
  honest ha hb := mimc_honest p n hn hp k hk ha.1 hb.1
  free := by
    intro cs a b x y ha hb hg
    obtain ⟨o, cs', h1, h2⟩ := C19_mimc_output_free p n hn k [a, b] [x, y] (by simp)
      (by simp [ha.1, hb.1]) cs hg
    refine ⟨o, cs', h1, ?_⟩
    rintro t ⟨z, rfl⟩
    obtain ⟨w, h3, h4, h5, h6⟩ := h2 z
    exact ⟨w, h3, h4, h5, by simp [mimcHash, h6]⟩

theorem fieldAlloc_cmp {cs : CS F} (x : F) :
    Cmp cs (unwrapS (FieldOut.alloc (some x))) (fun o cs' => KField cs' o x ∧
      cs'.inputs = cs.inputs ∧ cs'.aux = cs.aux ++ [x]) := by
  refine unwrapS_cmp fun hg => ?_
  obtain ⟨r, cs', h1, h2, h3, h4⟩ := Cmp.alloc' (cs := cs) (f := okOr (some x)) (v := x) rfl hg
  have h5 : Zkp.alloc (okOr (some x)) cs = .ok (.aux cs.aux.length, { cs with aux := cs.aux ++ [x] }) := by
    simp [Zkp.alloc, okOr, hg.proving]
  refine ⟨⟨some x, r⟩, cs', ?_, h2, h3, ⟨rfl, h4⟩, ?_⟩
  · simp only [FieldOut.alloc, bind, StateT.bind, Except.bind, h1, pure, StateT.pure, Except.pure]
  · rw [h1] at h5
    rw [(Prod.mk.inj (Except.ok.inj h5)).2]
    exact ⟨rfl, rfl⟩

theorem fieldAllocInput_cmp {cs : CS F} (x : F) :
    Cmp cs (unwrapS (FieldOut.allocInput (some x))) (fun o cs' => KField cs' o x ∧
      cs'.inputs = cs.inputs ++ [x] ∧ cs'.aux = cs.aux) := by
  refine unwrapS_cmp fun hg => ?_
  obtain ⟨r, cs', h1, h2, h3, h4⟩ := Cmp.allocInput' (cs := cs) (f := okOr (some x)) (v := x) rfl hg
  have h5 : Zkp.allocInput (okOr (some x)) cs =
      .ok (.input cs.inputs.length, { cs with inputs := cs.inputs ++ [x] }) := by
    simp [Zkp.allocInput, okOr, hg.proving]
  refine ⟨⟨some x, r⟩, cs', ?_, h2, h3, ⟨rfl, h4⟩, ?_⟩
  · simp only [FieldOut.allocInput, bind, StateT.bind, Except.bind, h1, pure, StateT.pure, Except.pure]
  · rw [h1] at h5
    rw [(Prod.mk.inj (Except.ok.inj h5)).2]
    exact ⟨rfl, rfl⟩

theorem KField.mono {cs cs' : CS F} {o : FieldOut F} {x : F} (e : cs.Ext cs') :
    KField cs o x → KField cs' o x := fun ⟨h1, h2⟩ => ⟨h1, h2.mono e⟩

theorem lemmasField_cmp (lemmas : List F) : ∀ {cs : CS F},
    Cmp cs (lemmas.mapM fun v => (unwrapS (FieldOut.alloc (some v)) : Synth F (FieldOut F)))
      (fun os cs' => List.Forall₂ (KField cs') os lemmas ∧ cs'.inputs = cs.inputs ∧
        cs'.aux = cs.aux ++ lemmas) := by
  induction lemmas with
  | nil => intro cs; exact Cmp.pure ⟨.nil, rfl, by simp⟩
  | cons v l ih =>
    intro cs
    rw [List.mapM_cons]
    refine (fieldAlloc_cmp v).bind fun a cs1 e1 h1 => ih.bind fun r cs2 e2 h2 => Cmp.pure ?_
    exact ⟨.cons (h1.1.mono e2) h2.1, h2.2.1.trans h1.2.1, by rw [h2.2.2, h1.2.2]; simp⟩

theorem mimc_start {p : Nat} [Fact p.Prime] (lemmas : List (ZMod p)) (root leaf : ZMod p) :
    ∃ (r l : FieldOut (ZMod p)) (ls : List (FieldOut (ZMod p))) (cs : CS (ZMod p)), cs.Good ∧
      KField cs r root ∧ KField cs l leaf ∧ List.Forall₂ (KField cs) ls lemmas ∧
      cs.inputs = [1, root] ∧ cs.aux = leaf :: lemmas ∧
      ∀ (n : Nat) (k : List (ZMod p)) (index : Nat),
        merkleMimc n k index lemmas (some root) (some leaf) (CS.new true) =
          unwrapS (setMembership (mimcHash n k) index ls r l) cs := by
  obtain ⟨r, cs1, h1, e1, g1, k1, i1, a1⟩ := fieldAllocInput_cmp root (CS.good_new (F := ZMod p))
  obtain ⟨l, cs2, h2, e2, g2, k2, i2, a2⟩ := fieldAlloc_cmp leaf g1
  obtain ⟨ls, cs3, h3, e3, g3, k3, i3, a3⟩ := lemmasField_cmp lemmas g2
  refine ⟨r, l, ls, cs3, g3, k1.mono (e2.trans e3), k2.mono e3, k3, ?_, ?_, ?_⟩
  · rw [i3, i2, i1]; rfl
  · rw [a3, a2, a1]; simp [CS.new]
  · intro n k index
    simp only [merkleMimc, bind, StateT.bind, Except.bind, h1, h2, h3]

/-- The property as stated, MiMC example. -/
def C115_mimc_statement (p n : Nat) [Fact p.Prime] (k : List (ZMod p)) : Prop :=
  ∀ (index : Nat) (lemmas : List (ZMod p)) (root leaf : ZMod p) (cs : CS (ZMod p)),
    merkleMimc n k index lemmas (some root) (some leaf) (CS.new true) = .ok ((), cs) →
    ∀ w : Index → ZMod p, w .one = 1 → cs.Sat w → w (.input 1) = root → w (.aux 0) = leaf →
      (∀ i v, lemmas[i]? = some v → w (.aux (i + 1)) = v) →
      (Cbmt.Proof.mk index lemmas).verify (mergeMimc n k) root leaf = true

/-- Violation, MiMC: for every leaf, all siblings (at least one), every position and every root, the
circuit of the example has a satisfying assignment with exactly these values. -/
theorem C115_mimc_any_root (p n : Nat) [Fact p.Prime] (hn : 0 < n) (hp : p ≤ 256 ^ n)
    (k : List (ZMod p)) (hk : k.length = 322) (index : Nat) (lemmas : List (ZMod p))
    (root leaf : ZMod p) (hne : lemmas ≠ []) :
    ∃ cs : CS (ZMod p), merkleMimc n k index lemmas (some root) (some leaf) (CS.new true) = .ok ((), cs) ∧
      ∃ w : Index → ZMod p, w .one = 1 ∧ cs.Sat w ∧ w (.input 1) = root ∧ w (.aux 0) = leaf ∧
        ∀ i v, lemmas[i]? = some v → w (.aux (i + 1)) = v := by
  obtain ⟨r, l, ls, cs, hg, k1, k2, k3, hi, ha, hrun⟩ := mimc_start lemmas root leaf
  have hls : ls ≠ [] := by
    rintro rfl
    cases lemmas with
    | nil => exact hne rfl
    | cons a l => cases k3
  obtain ⟨cs', h1, w, ho, hs, hw⟩ := membership_any_root (mimc_hashing p n hn hp k hk) hg index hls
    k2 k1 k3 ⟨root, rfl⟩
  refine ⟨cs', by rw [hrun]; exact unwrapS_ok h1, w, ho, hs, hw.1 1 root (by rw [hi]; rfl),
    hw.2 0 leaf (by rw [ha]; rfl), ?_⟩
  intro i v hv
  exact hw.2 (i + 1) v (by rw [ha]; simpa using hv)

theorem C115_mimc_violated (p n : Nat) [Fact p.Prime] (hn : 0 < n) (hp : p ≤ 256 ^ n)
    (k : List (ZMod p)) (hk : k.length = 322) : ¬ C115_mimc_statement p n k := by
  intro h
  have key : ∀ root : ZMod p, (Cbmt.Proof.mk 1 [7]).verify (mergeMimc n k) root 9 = true := by
    intro root
    obtain ⟨cs, h1, w, h2, h3, h4, h5, h6⟩ := C115_mimc_any_root p n hn hp k hk 1 [7] root 9 (by simp)
    exact h 1 [7] root 9 cs h1 w h2 h3 h4 h5 h6
  have a := key 0
  have b := key 1
  simp [Cbmt.Proof.verify, Cbmt.Proof.root] at a b
  rw [a] at b
  exact zero_ne_one b

/-- What holds (`_partial`; missing: soundness): completeness, MiMC, every depth. -/
theorem C115_mimc_complete_partial (p n : Nat) [Fact p.Prime] (hn : 0 < n) (hp : p ≤ 256 ^ n)
    (k : List (ZMod p)) (hk : k.length = 322) (index : Nat) (lemmas : List (ZMod p))
    (root leaf : ZMod p)
    (hv : (Cbmt.Proof.mk index lemmas).verify (mergeMimc n k) root leaf = true) :
    ∃ cs : CS (ZMod p), merkleMimc n k index lemmas (some root) (some leaf) (CS.new true) = .ok ((), cs) ∧
      cs.Sat cs.witness := by
  obtain ⟨r, l, ls, cs, hg, k1, k2, k3, hi, ha, hrun⟩ := mimc_start lemmas root leaf
  have hroot : (lemmas.foldl (rootStep (mergeMimc n k)) (leaf, index)).1 = root := by
    unfold Cbmt.Proof.verify Cbmt.Proof.root at hv
    split at hv
    · rename_i x hx
      split at hx
      · simp at hx
      · simp only [Option.some.injEq] at hx
        simpa [hx] using hv
    · simp at hv
  obtain ⟨⟨⟩, cs', h1, -, g1, -⟩ := unwrapS_cmp (membership_cmp (mimc_hashing p n hn hp k hk) index k2 k1
    k3 hroot) hg
  exact ⟨cs', by rw [hrun]; exact h1, g1.sat⟩

/-- Concrete case: the field of the examples (BLS12-381), four limbs of eight bytes, a path of three
siblings; both circuits accept the root `0`, respectively 32 zero bytes, for the leaf `1`. -/
example : 64 ≤ Nat.size blsR ∧ blsR ≤ 256 ^ 32 ∧ ([2, 3, 4] : List (ZMod blsR)) ≠ [] ∧
    (List.replicate 32 (0 : UInt8)).length = 32 := by
  refine ⟨by rw [size_blsR]; omega, by unfold blsR; omega, by simp, by simp⟩

/-- Concrete case for the completeness theorems: the accepted path of the leaf `9` at position 4 of a
tree with the root computed natively. -/
example (p : Nat) [Fact p.Prime] (k : List (ZMod p)) :
    (Cbmt.Proof.mk 4 [5, 6]).verify (mergeMimc 32 k) (mergeMimc 32 k (mergeMimc 32 k 5 9) 6) 9 = true := by
  simp [Cbmt.Proof.verify, Cbmt.Proof.root, rootStep, isLeft, parent]

theorem byte_of_bits : ∀ a b c d e f g h : Bool, ∃ x : Fin 256,
    ((List.range 8).reverse.map fun i => (UInt8.ofFin x).toNat.testBit i) = [a, b, c, d, e, f, g, h] := by
  decide +kernel

theorem hashBits_surj (n : Nat) : ∀ bits : List Bool, bits.length = 8 * n →
    ∃ bytes, hashBits bytes = bits := by
  induction n with
  | zero => intro bits h; exact ⟨[], (List.eq_nil_of_length_eq_zero (by omega)).symm⟩
  | succ n ih =>
    intro bits h
    match bits, h with
    | a :: b :: c :: d :: e :: f :: g :: i :: bits, h =>
      obtain ⟨x, hx⟩ := byte_of_bits a b c d e f g i
      obtain ⟨bytes, hb⟩ := ih bits (by simp at h; omega)
      refine ⟨UInt8.ofFin x :: bytes, ?_⟩
      simp only [hashBits, List.flatMap_cons] at hb ⊢
      rw [hx, hb]
      rfl

/-- Concrete case for the assumption on the external SHA-256: there is such a function. -/
example : ∃ merge : List UInt8 → List UInt8 → List UInt8,
    ∀ a b, msbBits (merge a b) = Sha256.hash (msbBits a ++ msbBits b) := by
  rw [← hashBits_eq]
  have h : ∀ a b, ∃ c, hashBits c = Sha256.hash (hashBits a ++ hashBits b) := fun a b =>
    hashBits_surj 32 _ (by simp [Sha256.hash, Sha256.St.toBits, bitsBE, length_bitsLE])
  exact ⟨fun a b => (h a b).choose, fun a b => (h a b).choose_spec⟩

end Zkp.Merkle
