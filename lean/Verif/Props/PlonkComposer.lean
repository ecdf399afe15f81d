/- C40, C41: the Plonk composer. -/
import Verif.Proof.PlonkComposer
import Verif.Proof.F17Family
import Mathlib.Tactic.LinearCombination

set_option linter.unusedSectionVars false
set_option linter.unusedSimpArgs false

namespace Zkp.Plonk

variable {F : Type} [Field F]

/-! ### C40: gates -/

/-- The value of an optional auxiliary term. -/
def auxTerm (a : Nat → F) : Option (Nat × F) → F
  | some t => t.2 * a t.1
  | none => 0

/-- The relation a call stands for, between the values `a` of the variables, when the row's public input is
`pi` (for `const`, the stated public input is `-pi`, see `Op.pi`). -/
def Op.Rel (a : Nat → F) (pi : F) : Op F → Prop
  | .alloc _ => True
  | .poly l r o aux q_m q_c _ =>
    q_m * a l.1 * a r.1 + l.2 * a l.1 + r.2 * a r.1 + o.2 * a o.1 + auxTerm a aux + q_c + pi = 0
  | .const v value _ => a v = value - pi
  | .eq l r => a l = a r + -pi
  | .add l r o aux q_c _ => a o = l.2 * a l.1 + r.2 * a r.1 + auxTerm a aux + q_c + pi
  | .mul l r o aux q_m q_c _ => a o = q_m * a l * a r + auxTerm a aux + q_c + pi

/-- The relation a call stands for with the public input given in the call. -/
def Op.Holds (a : Nat → F) : Op F → Prop
  | .alloc _ => True
  | .poly l r o aux q_m q_c pi =>
    q_m * a l.1 * a r.1 + l.2 * a l.1 + r.2 * a r.1 + o.2 * a o.1 + auxTerm a aux + q_c + pi = 0
  | .const v value pi => a v = value + pi
  | .eq l r => a l = a r
  | .add l r o aux q_c pi => a o = l.2 * a l.1 + r.2 * a r.1 + auxTerm a aux + q_c + pi
  | .mul l r o aux q_m q_c pi => a o = q_m * a l * a r + auxTerm a aux + q_c + pi

/-- Row `i` of the composed circuit. -/
def RowHolds (s : Selectors F) (w : Witnesses F) (pi : List F) (i : Nat) : Prop :=
  (s.q_0.getD i 0 * w.w_0.getD i 0 + s.q_1.getD i 0 * w.w_1.getD i 0 + s.q_2.getD i 0 * w.w_2.getD i 0
    + s.q_3.getD i 0 * w.w_3.getD i 0 + s.q_m.getD i 0 * w.w_1.getD i 0 * w.w_2.getD i 0 + s.q_c.getD i 0
    + pi.getD i 0) * s.q_arith.getD i 0 = 0

/-- The polynomial relation of a row. -/
def Gate.Eq (g : Gate F) (a : Nat → F) (pi : F) : Prop :=
  g.aux.2 * a (g.var 0) + g.l.2 * a (g.var 1) + g.r.2 * a (g.var 2) + g.o.2 * a (g.var 3)
    + g.q_m * a (g.var 1) * a (g.var 2) + g.q_c + pi = 0

theorem Op.gate_rel {op : Op F} {g : Gate F} (h : op.gate = some g) (a : Nat → F) (pi : F) :
    g.Eq a pi ↔ op.Rel a pi := by
  have haux : ∀ aux : Option (Nat × F), (aux.getD (0, 0)).2 * a (aux.getD (0, 0)).1 = auxTerm a aux := by
    intro aux
    cases aux <;> simp [auxTerm]
  cases op with
  | alloc v => cases h
  | poly l r o aux q_m q_c pi' =>
    injection h with h; subst h
    simp only [Gate.Eq, Gate.var, Op.Rel, haux]
    constructor <;> intro h <;> linear_combination h
  | const v value pi' =>
    injection h with h; subst h
    simp only [Gate.Eq, Gate.var, Op.Rel, haux]
    constructor <;> intro h <;> linear_combination h
  | eq l r =>
    injection h with h; subst h
    simp only [Gate.Eq, Gate.var, Op.Rel, haux]
    constructor <;> intro h <;> linear_combination h
  | add l r o aux q_c pi' =>
    injection h with h; subst h
    simp only [Gate.Eq, Gate.var, Op.Rel, haux]
    constructor <;> intro h <;> linear_combination -h
  | mul l r o aux q_m q_c pi' =>
    injection h with h; subst h
    simp only [Gate.Eq, Gate.var, Op.Rel, haux]
    constructor <;> intro h <;> linear_combination -h

theorem Op.gate_holds {op : Op F} {g : Gate F} (h : op.gate = some g) (a : Nat → F) :
    g.Eq a g.pi ↔ op.Holds a := by
  rw [Op.gate_rel h]
  cases op with
  | alloc v => cases h
  | const v value pi' => injection h with h; subst h; simp [Op.Rel, Op.Holds, sub_neg_eq_add]
  | eq l r => injection h with h; subst h; simp [Op.Rel, Op.Holds]
  | poly l r o aux q_m q_c pi' => injection h with h; subst h; rfl
  | add l r o aux q_c pi' => injection h with h; subst h; rfl
  | mul l r o aux q_m q_c pi' => injection h with h; subst h; rfl

theorem except_bind {ε α β : Type} {x : Except ε α} {f : α → Except ε β} {b : β} (h : (x >>= f) = .ok b) :
    ∃ a, x = .ok a ∧ f a = .ok b := by
  cases x with
  | error e => cases h
  | ok a => exact ⟨a, rfl, h⟩

theorem domain_ok {mk : Nat → Option (Domain F)} {n : Nat} {D : Domain F} (h : domain mk n = .ok D) :
    mk n = some D := by
  unfold domain at h
  split at h
  · injection h with h; subst h; assumption
  · cases h

theorem orPanic_ok {α : Type} {x : Option α} {a : α} (h : orPanic x = .ok a) : x = some a := by
  cases x with
  | none => cases h
  | some b => injection h with h; rw [h]

theorem values_eq {gs : List (Gate F)} {vals : List F} {c : Composer F} (b : Built gs vals c) (k : Fin 4) :
    c.values (gs.map (·.var k)) = some (gs.map fun g => vals.getD (g.var k) 0) := by
  unfold Composer.values
  have hr := b.range
  rw [b.hvals]
  clear b
  induction gs with
  | nil => rfl
  | cons g gs ih =>
    rw [List.map_cons, List.mapM_cons]
    have h1 := hr g (by simp) k
    rw [List.getElem?_eq_getElem h1, ih (fun g' hg' => hr g' (by simp [hg']))]
    simp [List.getD_eq_getElem?_getD, h1]

/-- Composition and synthesis succeed whenever there is a domain, and have the expected contents. -/
theorem synthesize_ok {mk : Nat → Option (Domain F)} {gs : List (Gate F)} {vals : List F} {c : Composer F}
    (b : Built gs vals c) {D : Domain F} (hD : mk c.n = some D) :
    c.synthesize mk = .ok (
      let z : List F := List.replicate (D.size - c.n) 0
      ⟨(gs.map fun g => vals.getD (g.var 0) 0) ++ z, (gs.map fun g => vals.getD (g.var 1) 0) ++ z,
        (gs.map fun g => vals.getD (g.var 2) 0) ++ z, (gs.map fun g => vals.getD (g.var 3) 0) ++ z⟩) := by
  unfold Composer.synthesize domain
  rw [hD, b.w_0, b.w_1, b.w_2, b.w_3, values_eq b, values_eq b, values_eq b, values_eq b]
  rfl

theorem getD_pad {α : Type} (gs : List α) (f : α → F) (m i : Nat) :
    (gs.map f ++ List.replicate m 0).getD i 0 = (gs[i]?.map f).getD 0 := by
  rw [List.getD_eq_getElem?_getD]
  by_cases h : i < gs.length
  · rw [List.getElem?_append_left (by simpa using h), List.getElem?_map]
  · rw [List.getElem?_append_right (by simpa using h), List.getElem?_replicate]
    have : gs[i]? = none := by simpa using h
    rw [this]
    split <;> rfl

/-- The rows of a composed circuit, for any values on the wires that come from values of the variables. -/
theorem rows_iff {mk : Nat → Option (Domain F)} {order : List (List Wire) → List (List Wire)}
    {ks : Fin 4 → F} {gs : List (Gate F)} {vals : List F} {c : Composer F} (b : Built gs vals c)
    {s : Selectors F} (hs : c.compose mk order ks = .ok s) (hge : ∀ n D, mk n = some D → n ≤ D.size)
    (w : Witnesses F) (a : Nat → F) (pi : List F)
    (hw : ∀ i g, gs[i]? = some g → w.w_0.getD i 0 = a (g.var 0) ∧ w.w_1.getD i 0 = a (g.var 1) ∧
      w.w_2.getD i 0 = a (g.var 2) ∧ w.w_3.getD i 0 = a (g.var 3)) :
    (∀ i < s.n, RowHolds s w pi i) ↔ ∀ i (g : Gate F), gs[i]? = some g → g.Eq a (pi.getD i 0) := by
  unfold Composer.compose at hs
  obtain ⟨D, hD, hs⟩ := except_bind hs
  obtain ⟨t, ht, hs⟩ := except_bind hs
  injection hs with hs
  subst hs
  have hle := hge _ _ (domain_ok hD)
  rw [b.n] at hle
  unfold RowHolds
  dsimp only
  rw [b.q_0, b.q_1, b.q_2, b.q_3, b.q_m, b.q_c, b.q_arith]
  simp only [getD_pad]
  constructor
  · intro h i g hg
    have hi : i < gs.length := (List.getElem?_eq_some_iff.mp hg).1
    have := h i (by omega)
    obtain ⟨h0, h1, h2, h3⟩ := hw i g hg
    rw [hg, h0, h1, h2, h3] at this
    simp only [Option.map_some, Option.getD_some, mul_one] at this
    exact this
  · intro h i _
    cases hg : gs[i]? with
    | none => simp
    | some g =>
      obtain ⟨h0, h1, h2, h3⟩ := hw i g hg
      rw [h0, h1, h2, h3]
      simp only [Option.map_some, Option.getD_some, mul_one]
      exact h i g hg

theorem getElem?_filterMap_mem {α β : Type} (f : α → Option β) (l : List α) {i : Nat} {b : β}
    (h : (l.filterMap f)[i]? = some b) : ∃ a ∈ l, f a = some b :=
  List.mem_filterMap.mp (List.mem_of_getElem? h)

/-- C40.  For any sequence of calls: composing and synthesizing succeed if there is an evaluation domain, and
then all rows hold for the assigned values and public inputs exactly when the relation of every call holds.
The values are the ones allocated, in order of allocation, after the zero of the null variable. -/
theorem C40 {mk : Nat → Option (Domain F)} (hmk : MkOk mk) {order : List (List Wire) → List (List Wire)}
    {ks : Fin 4 → F} {ops : List (Op F)} {c : Composer F} (h : run ops = some c) {s : Selectors F}
    (hs : c.compose mk order ks = .ok s) :
    ∃ w, c.synthesize mk = .ok w ∧
      ((∀ i < s.n, RowHolds s w c.pi i) ↔
        ∀ op ∈ ops, op.Holds fun v => (0 :: ops.filterMap Op.value).getD v 0) := by
  have b := Built.run h
  set vals := 0 :: ops.filterMap Op.value with hvals
  have hD : ∃ D, mk c.n = some D := by
    unfold Composer.compose at hs
    obtain ⟨D, hD, hs⟩ := except_bind hs
    exact ⟨D, domain_ok hD⟩
  obtain ⟨D, hD⟩ := hD
  refine ⟨_, synthesize_ok b hD, ?_⟩
  rw [rows_iff b hs (fun _ _ h => hmk.ge h) _ (fun v => vals.getD v 0) c.pi ?_]
  · constructor
    · intro hrow op hop
      cases hg : op.gate with
      | none =>
        cases op with
        | alloc v => trivial
        | _ => cases hg
      | some g =>
        have hm : g ∈ ops.filterMap Op.gate := List.mem_filterMap.mpr ⟨op, hop, hg⟩
        obtain ⟨i, hi⟩ := List.mem_iff_getElem?.mp hm
        have := hrow i g hi
        rw [b.pi, List.getD_eq_getElem?_getD, List.getElem?_map, hi] at this
        exact (Op.gate_holds hg _).mp this
    · intro hall i g hg
      obtain ⟨op, hop, ho⟩ := getElem?_filterMap_mem _ _ hg
      rw [b.pi, List.getD_eq_getElem?_getD, List.getElem?_map, hg]
      exact (Op.gate_holds ho _).mpr (hall op hop)
  · intro i g hg
    dsimp only
    simp only [getD_pad, hg, Option.map_some, Option.getD_some, and_self]

/-! ### C41: the wiring permutation -/

/-- The variable at a position, read from the composer's columns. -/
def Composer.varAt (c : Composer F) (w : Wire) : Option Nat :=
  (match w.col with
    | 0 => c.w_0
    | 1 => c.w_1
    | 2 => c.w_2
    | 3 => c.w_3)[w.row]?

theorem Built.varAt {gs : List (Gate F)} {vals : List F} {c : Composer F} (b : Built gs vals c) (w : Wire) :
    c.varAt w = gs[w.row]?.map (·.var w.col) := by
  obtain ⟨col, row⟩ := w
  unfold Composer.varAt
  rw [b.w_0, b.w_1, b.w_2, b.w_3]
  fin_cases col <;> simp

/-- The wiring permutation is computed without a panic, and position by position it is what C41 says. -/
theorem wiring {ops : List (Op F)} {c : Composer F} (h : run ops = some c) {n : Nat} (hn : c.n ≤ n)
    {order : List (List Wire) → List (List Wire)} (ho : ∀ l, (order l).Perm l) :
    ∃ t, computeWirePermutation (order c.variable_map) n = some t ∧ t.Len n ∧
      (∀ u, c.varAt u = none → t.apply u = u) ∧
      ∀ v i u, (wiresOf (ops.filterMap Op.gate) v)[i]? = some u →
        t.apply u = prevOf (wiresOf (ops.filterMap Op.gate) v) u i := by
  have b := Built.run h
  set gs := ops.filterMap Op.gate with hgs
  have hmem : ∀ ws, ws ∈ order c.variable_map ↔ ∃ v < c.variable_map.length, ws = wiresOf gs v := by
    intro ws
    rw [(ho _).mem_iff, List.mem_iff_getElem]
    constructor
    · rintro ⟨v, hv, rfl⟩
      refine ⟨v, hv, ?_⟩
      rw [← b.map v (by rw [← b.len]; exact hv), List.getD_eq_getElem?_getD, List.getElem?_eq_getElem hv]
      rfl
    · rintro ⟨v, hv, rfl⟩
      refine ⟨v, hv, ?_⟩
      rw [← b.map v (by rw [← b.len]; exact hv), List.getD_eq_getElem?_getD, List.getElem?_eq_getElem hv]
      rfl
  have hdis : ∀ u v, u ≠ v → List.Disjoint (wiresOf gs u) (wiresOf gs v) := by
    intro u v huv w h1 h2
    obtain ⟨g, hg, e1⟩ := wiresOf_lt.mp h1
    obtain ⟨g', hg', e2⟩ := wiresOf_lt.mp h2
    rw [hg] at hg'
    injection hg' with hg'
    subst hg'
    exact huv (e1.symm.trans e2)
  have hpw : (order c.variable_map).Pairwise List.Disjoint := by
    rw [(ho _).pairwise_iff (fun h => h.symm), List.pairwise_iff_getElem]
    intro i j hi hj hij
    have e1 := b.map i (by rw [← b.len]; exact hi)
    have e2 := b.map j (by rw [← b.len]; exact hj)
    rw [List.getD_eq_getElem?_getD, List.getElem?_eq_getElem hi, Option.getD_some] at e1
    rw [List.getD_eq_getElem?_getD, List.getElem?_eq_getElem hj, Option.getD_some] at e2
    rw [e1, e2]
    exact hdis i j (by omega)
  obtain ⟨t, h1, h2, h3, h4⟩ := computeWirePermutation_ok (n := n) (order c.variable_map) (idTable n)
    (by
      intro ws hws
      obtain ⟨v, hv, rfl⟩ := (hmem ws).mp hws
      refine ⟨wiresOf_nodup _ _, ?_⟩
      intro w hw
      obtain ⟨g, hg, -⟩ := wiresOf_lt.mp hw
      have := (List.getElem?_eq_some_iff.mp hg).1
      have := b.n
      omega) hpw (idTable_len n) (fun _ _ w _ => idTable_apply n w)
  refine ⟨t, h1, h2, ?_, ?_⟩
  · intro u hu
    rw [h3 u ?_, idTable_apply]
    intro ws hws hmemu
    obtain ⟨v, hv, rfl⟩ := (hmem ws).mp hws
    obtain ⟨g, hg, -⟩ := wiresOf_lt.mp hmemu
    rw [b.varAt, hg] at hu
    cases hu
  · intro v i u hu
    by_cases hv : v < c.variable_map.length
    · exact h4 _ ((hmem _).mpr ⟨v, hv, rfl⟩) i u hu
    · exfalso
      obtain ⟨g, hg, e⟩ := wiresOf_lt.mp (List.mem_of_getElem? hu)
      have := b.range g (List.mem_of_getElem? hg) u.col
      have := b.len
      omega

theorem sameCycle_inv {α β : Type} (σ : Equiv.Perm α) (f : α → β) (h : ∀ p, f (σ p) = f p) {p q : α}
    (hc : σ.SameCycle p q) : f p = f q := by
  obtain ⟨k, rfl⟩ := hc
  have hsymm : ∀ p, f (σ⁻¹ p) = f p := by
    intro p
    have := h (σ⁻¹ p)
    rw [show σ (σ⁻¹ p) = p from σ.apply_symm_apply p] at this
    exact this.symm
  symm
  induction k using Int.induction_on generalizing p with
  | zero => rfl
  | succ n ih => rw [zpow_add_one, Equiv.Perm.mul_apply, ih, h]
  | pred n ih => rw [zpow_sub_one, Equiv.Perm.mul_apply, ih, hsymm]

/-- C41.  For every circuit, every number `n` of rows at least the number of gates, and every iteration
order of the variable map: the tables describe a bijection `σ` of the positions; two positions are on the
same cycle exactly when they are equal or hold the same variable; positions beyond the gates are fixed. -/
theorem C41 {ops : List (Op F)} {c : Composer F} (h : run ops = some c) {n : Nat} (hn : c.n ≤ n)
    {order : List (List Wire) → List (List Wire)} (ho : ∀ l, (order l).Perm l) :
    ∃ t, computeWirePermutation (order c.variable_map) n = some t ∧ (∀ k, (t k).length = n) ∧
      ∃ σ : Equiv.Perm (Fin 4 × Fin n),
        (∀ p : Fin 4 × Fin n, (t p.1)[p.2.1]? = some ⟨(σ p).1, (σ p).2.1⟩) ∧
        (∀ p q, σ.SameCycle p q ↔ p = q ∨ ∃ v, c.varAt ⟨p.1, p.2.1⟩ = some v ∧ c.varAt ⟨q.1, q.2.1⟩ = some v) ∧
        ∀ p : Fin 4 × Fin n, c.n ≤ p.2.1 → σ p = p := by
  obtain ⟨t, ht, hlen, hfix, hcyc⟩ := wiring h hn ho
  have b := Built.run h
  set gs := ops.filterMap Op.gate with hgs
  refine ⟨t, ht, hlen, ?_⟩
  let pos : Fin 4 × Fin n → Wire := fun p => ⟨p.1, p.2.1⟩
  have hpos : Function.Injective pos := by
    rintro ⟨a, i⟩ ⟨a', i'⟩ e
    simp only [pos, Wire.mk.injEq] at e
    rw [Prod.mk.injEq]
    exact ⟨e.1, Fin.ext e.2⟩
  -- membership in a cycle
  have hin : ∀ w v, c.varAt w = some v ↔ w ∈ wiresOf gs v := by
    intro w v
    rw [b.varAt, wiresOf_lt, Option.map_eq_some_iff]
  have hrow : ∀ w v, w ∈ wiresOf gs v → w.row < n := by
    intro w v hw
    obtain ⟨g, hg, -⟩ := wiresOf_lt.mp hw
    have := (List.getElem?_eq_some_iff.mp hg).1
    have := b.n
    omega
  have hprev : ∀ v i u, (wiresOf gs v)[i]? = some u → ∃ j, (wiresOf gs v)[j]? = some (t.apply u) ∧
      (if i = 0 then j = (wiresOf gs v).length - 1 else j + 1 = i) := by
    intro v i u hu
    rw [hcyc v i u hu]
    have hi := (List.getElem?_eq_some_iff.mp hu).1
    refine ⟨if i = 0 then (wiresOf gs v).length - 1 else i - 1, ?_, by split <;> omega⟩
    unfold prevOf
    have hj : (if i = 0 then (wiresOf gs v).length - 1 else i - 1) < (wiresOf gs v).length := by
      split <;> omega
    rw [List.getD_eq_getElem?_getD, List.getElem?_eq_getElem hj]
    rfl
  have hvar : ∀ u v, c.varAt u = some v → c.varAt (t.apply u) = some v := by
    intro u v hu
    obtain ⟨i, hi⟩ := List.mem_iff_getElem?.mp ((hin u v).mp hu)
    obtain ⟨j, hj, -⟩ := hprev v i u hi
    exact (hin _ _).mpr (List.mem_of_getElem? hj)
  have hstay : ∀ p : Fin 4 × Fin n, (t.apply (pos p)).row < n := by
    intro p
    cases e : c.varAt (pos p) with
    | none => rw [hfix _ e]; exact p.2.2
    | some v => exact hrow _ v ((hin _ _).mp (hvar _ _ e))
  let f : Fin 4 × Fin n → Fin 4 × Fin n := fun p => ((t.apply (pos p)).col, ⟨(t.apply (pos p)).row, hstay p⟩)
  have hf : ∀ p, pos (f p) = t.apply (pos p) := fun p => rfl
  have hsurj : Function.Surjective f := by
    intro q
    cases e : c.varAt (pos q) with
    | none => exact ⟨q, hpos (by rw [hf, hfix _ e])⟩
    | some v =>
      obtain ⟨j, hj⟩ := List.mem_iff_getElem?.mp ((hin _ _).mp e)
      have hjl := (List.getElem?_eq_some_iff.mp hj).1
      -- the next position
      let i := if j + 1 = (wiresOf gs v).length then 0 else j + 1
      have hil : i < (wiresOf gs v).length := by simp only [i]; split <;> omega
      have hu := List.getElem?_eq_getElem hil
      set u := (wiresOf gs v)[i] with hudef
      have hun : u.row < n := hrow u v (List.mem_of_getElem? hu)
      refine ⟨(u.col, ⟨u.row, hun⟩), hpos ?_⟩
      rw [hf]
      change t.apply u = pos q
      obtain ⟨j', hj', hrel⟩ := hprev v i u hu
      have : j' = j := by
        simp only [i] at hrel
        split at hrel
        · rw [if_pos rfl] at hrel; omega
        · rw [if_neg (by omega)] at hrel; omega
      subst this
      rw [hj] at hj'
      injection hj' with hj'
      exact hj'.symm
  have hbij : Function.Bijective f := ⟨Finite.injective_iff_surjective.mpr hsurj, hsurj⟩
  let σ : Equiv.Perm (Fin 4 × Fin n) := Equiv.ofBijective f hbij
  have hσ : ∀ p, σ p = f p := fun p => rfl
  have hfixσ : ∀ p, c.varAt (pos p) = none → σ p = p := by
    intro p hp
    exact hpos (by rw [hσ, hf, hfix _ hp])
  refine ⟨σ, ?_, ?_, ?_⟩
  · intro p
    have hl : p.2.1 < (t p.1).length := by rw [hlen]; exact p.2.2
    rw [List.getElem?_eq_getElem hl]
    congr 1
    change _ = t.apply (pos p)
    unfold WireTable.apply
    rw [List.getD_eq_getElem?_getD]
    change _ = ((t p.1)[p.2.1]?).getD _
    rw [List.getElem?_eq_getElem hl]
    rfl
  · intro p q
    constructor
    · intro hc
      let cls : Fin 4 × Fin n → Nat ⊕ (Fin 4 × Fin n) := fun p =>
        match c.varAt (pos p) with
        | some v => .inl v
        | none => .inr p
      have hinv : ∀ p, cls (σ p) = cls p := by
        intro p
        simp only [cls]
        cases e : c.varAt (pos p) with
        | none => rw [hfixσ p e, e]
        | some v =>
          have : c.varAt (pos (σ p)) = some v := by rw [hσ, hf]; exact hvar _ _ e
          rw [this]
      have := sameCycle_inv σ cls hinv hc
      simp only [cls] at this
      cases e1 : c.varAt (pos p) with
      | none =>
        rw [e1] at this
        cases e2 : c.varAt (pos q) with
        | none => rw [e2] at this; injection this with this; exact .inl this
        | some v => rw [e2] at this; cases this
      | some v =>
        rw [e1] at this
        cases e2 : c.varAt (pos q) with
        | none => rw [e2] at this; cases this
        | some v' =>
          rw [e2] at this
          injection this with this
          subst this
          exact .inr ⟨v, rfl, rfl⟩
    · rintro (rfl | ⟨v, h1, h2⟩)
      · exact Equiv.Perm.SameCycle.refl _ _
      · -- everything is on the cycle of the first wire
        have key : ∀ (i : Nat) (p : Fin 4 × Fin n), (wiresOf gs v)[i]? = some (pos p) →
            ∀ r : Fin 4 × Fin n, (wiresOf gs v)[0]? = some (pos r) → σ.SameCycle p r := by
          intro i
          induction i with
          | zero =>
            intro p hp r hr
            rw [hp] at hr
            injection hr with hr
            rw [hpos hr]
          | succ i ih =>
            intro p hp r hr
            obtain ⟨j, hj, hrel⟩ := hprev v (i + 1) (pos p) hp
            rw [if_neg (by omega)] at hrel
            have : j = i := by omega
            subst this
            have h3 := ih (σ p) hj r hr
            exact (Equiv.Perm.sameCycle_apply_left).mp h3
        obtain ⟨i, hi⟩ := List.mem_iff_getElem?.mp ((hin _ _).mp h1)
        obtain ⟨j, hj⟩ := List.mem_iff_getElem?.mp ((hin _ _).mp h2)
        have hl := (List.getElem?_eq_some_iff.mp hi).1
        have h0 : (wiresOf gs v)[0]? = some (wiresOf gs v)[0] := List.getElem?_eq_getElem (by omega)
        have hr0 := hrow _ v (List.mem_of_getElem? h0)
        let r : Fin 4 × Fin n := ((wiresOf gs v)[0].col, ⟨(wiresOf gs v)[0].row, hr0⟩)
        exact (key i p hi r h0).trans (key j q hj r h0).symm
  · intro p hp
    apply hfixσ
    rw [b.varAt]
    have : gs[p.2.1]? = none := by
      rw [List.getElem?_eq_none_iff]
      have := b.n
      omega
    change Option.map _ gs[p.2.1]? = none
    rw [this]
    rfl

/-! ### Examples -/

open Ex17 in
/-- A circuit with all kinds of gates: `3·4 = 12`, `12 + 4 = 16`, and a public input. -/
def exOps : List (Op F17) :=
  [.alloc 3, .alloc 4, .alloc 12, .alloc 16, .mul 1 2 3 none 1 0 0, .add (3, 1) (2, 1) 4 none 0 0,
    .const 4 10 6, .eq 2 2, .poly (1, 1) (2, 1) (3, 0) (some (4, 1)) 0 (-7) (-16)]

open Ex17 in
example : ∃ c s, run exOps = some c ∧ c.compose mkAll id ![1, 7, 13, 9] = .ok s ∧ s.n = 8 ∧
    ∀ op ∈ exOps, op.Holds fun v => (0 :: exOps.filterMap Op.value).getD v 0 := by
  refine ⟨_, _, rfl, rfl, rfl, ?_⟩
  intro op hop
  simp only [exOps, List.mem_cons, List.not_mem_nil, or_false] at hop
  rcases hop with rfl | rfl | rfl | rfl | rfl | rfl | rfl | rfl | rfl <;>
    simp only [Op.Holds, exOps, List.filterMap, Op.value, auxTerm, List.getD_cons_succ, List.getD_cons_zero] <;>
    decide

open Ex17 in
example : ∃ c, run exOps = some c ∧ c.n ≤ 8 ∧ ∀ l : List (List Wire), (id l).Perm l :=
  ⟨_, rfl, by decide, fun l => List.Perm.refl l⟩

end Zkp.Plonk
