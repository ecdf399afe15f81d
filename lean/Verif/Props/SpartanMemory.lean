/- C49, C51: Spartan's offline memory checking and product circuits. -/
import Verif.Model.SpartanR1cs
import Verif.Proof.Multilinear
import Verif.Proof.F17
import Mathlib.Algebra.Polynomial.Roots
import Mathlib.Algebra.CharP.Defs

namespace Zkp.Spartan

set_option linter.unusedSectionVars false
set_option linter.unusedSimpArgs false

variable {F : Type} [Field F]

/-! ### C51 -/

theorem productLayers_last (k : Nat) : ∀ list : List F, 2 ≤ list.length → Nat.clog 2 list.length = k + 1 →
    (productLayers (k + 1) list).length = k + 1 ∧
    ∃ x y : F, (productLayers (k + 1) list)[k]? = some ([x], [y]) ∧ x * y = list.prod := by
  induction k with
  | zero =>
    intro list h2 hc
    have h : list.length ≤ 2 := by
      have := Nat.le_pow_clog (b := 2) (by norm_num) list.length
      rw [hc] at this; simpa using this
    match list, h2, h with
    | [x, y], _, _ => exact ⟨rfl, x, y, by simp [productLayers], by simp⟩
  | succ k ih =>
    intro list h2 hc
    -- the list after padding to even length
    obtain ⟨list', half, heq, hlen, hprod, hhalf⟩ : ∃ (list' : List F) (half : Nat),
        (if list.length / 2 * 2 < list.length then (list ++ [1], list.length / 2 + 1)
          else (list, list.length / 2)) = (list', half) ∧ list'.length = 2 * half ∧
        list'.prod = list.prod ∧ half = (list.length + 2 - 1) / 2 := by
      by_cases hodd : list.length / 2 * 2 < list.length
      · refine ⟨list ++ [1], list.length / 2 + 1, by rw [if_pos hodd], ?_, by simp, by omega⟩
        simp; omega
      · refine ⟨list, list.length / 2, by rw [if_neg hodd], by omega, rfl, by omega⟩
    have hzlen : (List.zipWith (· * ·) (list'.take half) (list'.drop half)).length = half := by
      simp [hlen]; omega
    have hzprod : (List.zipWith (· * ·) (list'.take half) (list'.drop half)).prod = list.prod := by
      have key : ∀ (a b : List F), a.length = b.length → (List.zipWith (· * ·) a b).prod = a.prod * b.prod := by
        intro a
        induction a with
        | nil => intro b hb; cases b <;> simp_all
        | cons x a ih =>
          intro b hb
          cases b with
          | nil => simp at hb
          | cons y b => simp only [List.zipWith_cons_cons, List.prod_cons]; rw [ih b (by simpa using hb)]; ring
      rw [key _ _ (by simp [hlen]; omega), ← List.prod_append, List.take_append_drop, hprod]
    have hclog : Nat.clog 2 half = k + 1 := by
      rw [Nat.clog_of_two_le (by norm_num) h2, ← hhalf] at hc
      omega
    have hhalf2 : 2 ≤ half := by
      by_contra hc'
      have : half ≤ 1 := by omega
      rw [Nat.clog_of_right_le_one this] at hclog
      omega
    obtain ⟨h1, x, y, hx, hxy⟩ := ih _ (by rw [hzlen]; exact hhalf2) (by rw [hzlen]; exact hclog)
    have hstep : productLayers (k + 1 + 1) list = (list'.take half, list'.drop half) ::
        productLayers (k + 1) (List.zipWith (· * ·) (list'.take half) (list'.drop half)) := by
      rw [productLayers]
      simp only [heq]
    rw [hstep]
    exact ⟨by simp [h1], x, y, by simpa using hx, by rw [hxy, hzprod]⟩

/-- The product circuit of a list of two or more values evaluates to the product of the list.

Partial: the full claim drops `2 ≤ list.length`; it is false, the evaluation of the circuit of a single
value panics (`C51_violated`). -/
theorem C51_partial (list : List F) (h : 2 ≤ list.length) :
    evaluateProductCircuit (constructProductCircuit list) = some list.prod := by
  obtain ⟨k, hk⟩ : ∃ k, Nat.clog 2 list.length = k + 1 := by
    rw [Nat.clog_of_two_le (by norm_num) h]; exact ⟨_, rfl⟩
  obtain ⟨h1, x, y, hx, hxy⟩ := productLayers_last k list h hk
  unfold evaluateProductCircuit constructProductCircuit
  simp only [hk, List.length_map, h1, ne_eq, not_true_eq_false, if_false, Nat.succ_ne_zero,
    Nat.add_sub_cancel, List.getElem?_map, hx]
  simp [hxy]

example : evaluateProductCircuit (constructProductCircuit ([2, 3, 5, 7, 11] : List F17)) =
    some (2 * (3 * (5 * (7 * (11 * 1))))) := C51_partial _ (by decide)

/-- C51 fails: the circuit of one value (or of none) cannot be evaluated, whatever the value. `encode`
builds such circuits when every matrix has at most one nonzero entry. -/
theorem C51_violated (list : List F) (h : list.length ≤ 1) :
    evaluateProductCircuit (constructProductCircuit list) = none := by
  unfold evaluateProductCircuit constructProductCircuit
  rw [Nat.clog_of_right_le_one h]
  rfl

example : evaluateProductCircuit (constructProductCircuit ([5] : List F17)) = none :=
  C51_violated _ (by decide)

/-! ### C49 -/

/-- The cells (address, value, time) written in three columns. -/
def cells (a v t : List F) : Multiset (F × F × F) := ↑(a.zip (v.zip t))

theorem set_swap {α β : Type} (g : Nat → α → β) (l : List α) (k : Nat) (hk : k < l.length) (x : α) :
    (↑(l.mapIdx g) : Multiset β) + {g k x} = {g k l[k]} + ↑((l.set k x).mapIdx g) := by
  induction l generalizing g k with
  | nil => simp at hk
  | cons y l ih =>
    cases k with
    | zero =>
      simp only [List.mapIdx_cons, List.set_cons_zero, List.getElem_cons_zero,
        ← Multiset.cons_coe, ← Multiset.singleton_add]
      abel
    | succ k =>
      simp only [List.mapIdx_cons, List.set_cons_succ, List.getElem_cons_succ,
        ← Multiset.cons_coe, ← Multiset.singleton_add]
      have := ih (fun i => g (i + 1)) k (by simpa using hk)
      rw [add_assoc, this]
      abel

/-- One pass over addresses: initial cells plus written cells are read cells plus final cells. -/
theorem readPass_balance {β : Type} (g : Nat → Nat → β) (addrs : List Nat) (audit : List Nat) (ts audit' : List Nat)
    (h : readPass addrs audit = some (ts, audit')) :
    audit'.length = audit.length ∧ ts.length = addrs.length ∧
    (∀ a ∈ addrs, a < audit.length) ∧
    (↑(audit.mapIdx g) : Multiset β) + ↑(List.zipWith (fun a t => g a (t + 1)) addrs ts) =
      ↑(List.zipWith g addrs ts) + ↑(audit'.mapIdx g) := by
  induction addrs generalizing audit ts audit' with
  | nil =>
    simp only [readPass, Option.some.injEq, Prod.mk.injEq] at h
    obtain ⟨rfl, rfl⟩ := h
    simp
  | cons a addrs ih =>
    rw [readPass] at h
    cases hr : audit[a]? with
    | none => rw [hr] at h; simp at h
    | some rts =>
      rw [hr] at h
      simp only [Option.bind_eq_bind, Option.bind_some] at h
      cases hp : readPass addrs (audit.set a (rts + 1)) with
      | none => rw [hp] at h; simp at h
      | some p =>
        obtain ⟨ts0, aud0⟩ := p
        rw [hp] at h
        simp only [Option.bind_some, Option.some.injEq, Prod.mk.injEq] at h
        obtain ⟨rfl, rfl⟩ := h
        obtain ⟨h1, h2, h3, h4⟩ := ih _ _ _ hp
        have ha : a < audit.length := (List.getElem?_eq_some_iff.1 hr).1
        have hrts : audit[a] = rts := (List.getElem?_eq_some_iff.1 hr).2
        rw [List.length_set] at h1 h3
        refine ⟨h1, by simp [h2], ?_, ?_⟩
        · intro x hx
          rcases List.mem_cons.1 hx with rfl | hx
          · exact ha
          · exact h3 x hx
        · have hs := set_swap g audit a ha (rts + 1)
          rw [hrts] at hs
          simp only [List.zipWith_cons_cons, ← Multiset.cons_coe, ← Multiset.singleton_add]
          calc (↑(audit.mapIdx g) : Multiset β) + ({g a (rts + 1)} +
                ↑(List.zipWith (fun a t => g a (t + 1)) addrs ts0))
              = (↑(audit.mapIdx g) + {g a (rts + 1)}) +
                ↑(List.zipWith (fun a t => g a (t + 1)) addrs ts0) := by abel
            _ = {g a rts} + (↑((audit.set a (rts + 1)).mapIdx g) +
                ↑(List.zipWith (fun a t => g a (t + 1)) addrs ts0)) := by rw [hs]; abel
            _ = _ := by rw [h4]; abel

theorem readPass_some (addrs audit : List Nat) (h : ∀ a ∈ addrs, a < audit.length) :
    ∃ p, readPass addrs audit = some p := by
  induction addrs generalizing audit with
  | nil => exact ⟨_, rfl⟩
  | cons a addrs ih =>
    have ha := h a (by simp)
    obtain ⟨p, hp⟩ := ih (audit.set a (audit[a] + 1)) (fun x hx => by simpa using h x (by simp [hx]))
    rw [readPass, List.getElem?_eq_getElem ha]
    simp only [Option.bind_eq_bind, Option.bind_some, hp]
    exact ⟨_, rfl⟩

theorem readPasses_balance {β : Type} (g : Nat → Nat → β) (n : Nat) (lists : List (List Nat)) (audit : List Nat)
    (tss : List (List Nat)) (audit' : List Nat) (h : readPasses n lists audit = some (tss, audit')) :
    audit'.length = audit.length ∧ tss.length = lists.length ∧ (∀ l ∈ lists, l.length = n) ∧
    (∀ l ∈ tss, l.length = n) ∧ (∀ l ∈ lists, ∀ a ∈ l, a < audit.length) ∧
    (↑(audit.mapIdx g) : Multiset β) +
        ↑((List.zipWith (List.zipWith fun a t => g a (t + 1)) lists tss).flatten) =
      ↑((List.zipWith (List.zipWith g) lists tss).flatten) + ↑(audit'.mapIdx g) := by
  induction lists generalizing audit tss audit' with
  | nil =>
    simp only [readPasses, Option.some.injEq, Prod.mk.injEq] at h
    obtain ⟨rfl, rfl⟩ := h
    simp
  | cons l lists ih =>
    rw [readPasses] at h
    by_cases hl : l.length = n
    · rw [if_neg (by simpa using hl)] at h
      cases hp : readPass l audit with
      | none => rw [hp] at h; simp at h
      | some p =>
        obtain ⟨ts, aud1⟩ := p
        rw [hp] at h
        simp only [Option.bind_eq_bind, Option.bind_some] at h
        cases hq : readPasses n lists aud1 with
        | none => rw [hq] at h; simp at h
        | some q =>
          obtain ⟨tss1, aud2⟩ := q
          rw [hq] at h
          simp only [Option.bind_some, Option.some.injEq, Prod.mk.injEq] at h
          obtain ⟨rfl, rfl⟩ := h
          obtain ⟨a1, a2, a3, a4⟩ := readPass_balance g _ _ _ _ hp
          obtain ⟨b1, b2, b3, b4, b5, b6⟩ := ih _ _ _ hq
          refine ⟨by rw [b1, a1], by simp [b2], ?_, ?_, ?_, ?_⟩
          · intro x hx
            rcases List.mem_cons.1 hx with rfl | hx
            · exact hl
            · exact b3 x hx
          · intro x hx
            rcases List.mem_cons.1 hx with rfl | hx
            · rw [a2, hl]
            · exact b4 x hx
          · intro x hx
            rcases List.mem_cons.1 hx with rfl | hx
            · exact a3
            · intro y hy; rw [← a1]; exact b5 x hx y hy
          · simp only [List.zipWith_cons_cons, List.flatten_cons, ← Multiset.coe_add]
            rw [← add_assoc, a4, add_assoc, b6]; abel
    · rw [if_pos (by simpa using hl)] at h; simp at h

theorem readPasses_some (n : Nat) (lists : List (List Nat)) (audit : List Nat)
    (hn : ∀ l ∈ lists, l.length = n) (h : ∀ l ∈ lists, ∀ a ∈ l, a < audit.length) :
    ∃ p, readPasses n lists audit = some p := by
  induction lists generalizing audit with
  | nil => exact ⟨_, rfl⟩
  | cons l lists ih =>
    obtain ⟨⟨ts, aud⟩, hp⟩ := readPass_some l audit (h l (by simp))
    have hlen := (readPass_balance (fun _ _ => ()) _ _ _ _ hp).1
    obtain ⟨p, hq⟩ := ih aud (fun x hx => hn x (by simp [hx]))
      (fun x hx => by rw [hlen]; exact h x (by simp [hx]))
    rw [readPasses, if_neg (by simpa using hn l (by simp)), hp]
    simp only [Option.bind_eq_bind, Option.bind_some, hq]
    exact ⟨_, rfl⟩

/-- The value that a read of address `a` returns. -/
def readVals (mem : List F) (addrs : List Nat) : List F := addrs.map fun a => mem.getD a 0

theorem init_cells (mem : List F) (audit : List Nat) (h : audit.length = mem.length) :
    cells ((List.range mem.length).map fun (i : Nat) => (i : F)) mem (audit.map fun (a : Nat) => (a : F)) =
      ↑(audit.mapIdx fun (a t : Nat) => ((a : F), mem.getD a 0, (t : F))) := by
  unfold cells
  congr 1
  apply List.ext_getElem
  · simp [h]
  · intro i h1 h2
    simp at h1
    simp [List.getD_eq_getElem?_getD, h1]

theorem read_cells (mem : List F) (l ts : List Nat) (h : ts.length = l.length) (d : Nat) :
    cells (l.map fun (a : Nat) => (a : F)) (readVals mem l) (ts.map fun (a : Nat) => ((a + d : Nat) : F)) =
      ↑(List.zipWith (fun (a t : Nat) => ((a : F), mem.getD a 0, ((t + d : Nat) : F))) l ts) := by
  unfold cells readVals
  congr 1
  apply List.ext_getElem
  · simp [h]
  · intro i h1 h2
    simp

/-- Completeness of the timestamps: for any address lists (of `n` entries each) into a memory of `m`
cells, the recorded read and final timestamps balance: the initial cells (time zero) and the written
cells (read time plus one) are exactly the read cells and the final cells. -/
theorem C49_complete (lists : List (List Nat)) (n m : Nat) (hn : ∀ l ∈ lists, l.length = n)
    (hm : ∀ l ∈ lists, ∀ a ∈ l, a < m) (mem : List F) (hmem : mem.length = m) :
    ∃ ts : AddrTimestamps F, memoryInTheHead lists n m = some ts ∧ ts.addrIndex = lists ∧
      ts.addrs = lists.map (fun l => l.map fun (a : Nat) => (a : F)) ∧
      ts.readTs.length = lists.length ∧ (∀ l ∈ ts.readTs, l.length = n) ∧ ts.auditTs.length = m ∧
      cells ((List.range m).map fun (i : Nat) => (i : F)) mem (List.replicate m 0) +
        ((ts.addrs.zip ts.readTs).zip (lists.map (readVals mem))).foldr
          (fun x s => cells x.1.1 x.2 (x.1.2.map (· + 1)) + s) 0 =
      ((ts.addrs.zip ts.readTs).zip (lists.map (readVals mem))).foldr
          (fun x s => cells x.1.1 x.2 x.1.2 + s) 0 +
        cells ((List.range m).map fun (i : Nat) => (i : F)) mem ts.auditTs := by
  obtain ⟨⟨tss, audit⟩, hp⟩ := readPasses_some n lists (List.replicate m 0) hn (by simpa using hm)
  obtain ⟨h1, h2, _, h4, _, h6⟩ := readPasses_balance
    (fun (a t : Nat) => ((a : F), mem.getD a 0, (t : F))) n lists _ _ _ hp
  refine ⟨_, by unfold memoryInTheHead; rw [hp]; rfl, rfl, rfl, by simp [h2], ?_, by simpa using h1, ?_⟩
  · intro l hl
    simp only [List.mem_map] at hl
    obtain ⟨l', hl', rfl⟩ := hl
    simpa using h4 l' hl'
  · simp only
    subst hmem
    have e0 : (List.replicate mem.length (0 : F)) =
        (List.replicate mem.length 0).map fun (a : Nat) => (a : F) := by simp
    rw [e0, init_cells mem _ (by simp), init_cells mem audit (by simpa using h1)]
    have fold : ∀ (lists tss : List (List Nat)), tss.length = lists.length → (∀ l ∈ lists, l.length = n) →
        (∀ l ∈ tss, l.length = n) → ∀ d : Nat,
        ((((lists.map fun l => l.map fun (a : Nat) => (a : F)).zip
          (tss.map fun l => l.map fun (a : Nat) => (a : F))).zip (lists.map (readVals mem))).foldr
          (fun x s => cells x.1.1 x.2 (x.1.2.map (· + (d : F))) + s) 0) =
        ↑((List.zipWith (List.zipWith fun (a t : Nat) => ((a : F), mem.getD a 0, ((t + d : Nat) : F)))
          lists tss).flatten) := by
      intro lists
      induction lists with
      | nil => intro tss _ _ _ d; simp
      | cons l lists ih =>
        intro tss hlen hl ht d
        cases tss with
        | nil => simp at hlen
        | cons t tss =>
          simp only [List.map_cons, List.zip_cons_cons, List.foldr_cons, List.zipWith_cons_cons,
            List.flatten_cons, ← Multiset.coe_add]
          rw [ih tss (by simpa using hlen) (fun x hx => hl x (by simp [hx])) (fun x hx => ht x (by simp [hx])) d]
          congr 1
          rw [← read_cells mem l t (by rw [hl l (by simp), ht t (by simp)]) d, List.map_map]
          congr 1
          apply List.map_congr_left
          intro a _
          simp
    have f1 := fold lists tss h2 hn h4 1
    have f0 := fold lists tss h2 hn h4 0
    simp only [Nat.cast_one, Nat.cast_zero, add_zero, List.map_id'] at f1 f0
    rw [f1, f0, h6]

/-- Two lists of three reads of a memory of four cells, with repeated addresses. -/
example : ∃ ts : AddrTimestamps F17, memoryInTheHead [[0, 3, 3], [3, 1, 0]] 3 4 = some ts ∧
    ts.addrIndex = [[0, 3, 3], [3, 1, 0]] := by
  obtain ⟨ts, h, h', _⟩ := C49_complete (F := F17) [[0, 3, 3], [3, 1, 0]] 3 4 (by decide) (by decide)
    [7, 8, 9, 10] rfl
  exact ⟨ts, h, h'⟩

/-- The fingerprint of a cell under `gamma1`. -/
def cellHash (g : F) (c : F × F × F) : F := c.1 * g * g + c.2.1 * g + c.2.2

theorem circuitHash_cells (a v t : List F) (g : F) (hv : v.length = a.length) (ht : t.length = a.length) :
    circuitHash a v t g = some ((a.zip (v.zip t)).map (cellHash g)) := by
  unfold circuitHash
  rw [if_neg (by simp [hv, ht])]
  congr 1
  apply List.ext_getElem
  · simp [hv, ht]
  · intro i h1 h2
    simp at h1
    simp [cellHash, List.getD_eq_getElem?_getD, h1, hv, ht]

theorem mapM_some {α β : Type} (f : α → Option β) (g : α → β) (l : List α) (h : ∀ x ∈ l, f x = some (g x)) :
    l.mapM f = some (l.map g) := by
  induction l with
  | nil => rfl
  | cons x l ih =>
    rw [List.mapM_cons, h x (by simp), ih (fun y hy => h y (by simp [hy]))]
    rfl

/-- The product of a multiset of cells under the two challenges. -/
def fingerprint (g1 g2 : F) (s : Multiset (F × F × F)) : F := (s.map fun c => cellHash g1 c - g2).prod

theorem fingerprint_add (g1 g2 : F) (s t : Multiset (F × F × F)) :
    fingerprint g1 g2 (s + t) = fingerprint g1 g2 s * fingerprint g1 g2 t := by
  simp [fingerprint]

theorem fingerprint_cells (g1 g2 : F) (a v t : List F) :
    fingerprint g1 g2 (cells a v t) = (((a.zip (v.zip t)).map (cellHash g1)).map fun x => x - g2).prod := by
  simp [fingerprint, cells, List.map_map, Function.comp_def]

theorem fingerprint_foldr {α : Type} (g1 g2 : F) (f : α → Multiset (F × F × F)) (l : List α) :
    fingerprint g1 g2 (l.foldr (fun x s => f x + s) 0) = (l.map fun x => fingerprint g1 g2 (f x)).prod := by
  induction l with
  | nil => simp [fingerprint]
  | cons x l ih => rw [List.foldr_cons, fingerprint_add, ih]; simp

/-- What `memory_checking` asserts: with all columns of matching lengths (two or more), it succeeds if
and only if the fingerprints of the initial and written cells multiply to those of the read and final
cells. -/
theorem C49_assertion [DecidableEq F] (lists readTs es : List (List F)) (mem auditTs : List F) (g1 g2 : F)
    (h1 : readTs.length = lists.length) (h2 : es.length = lists.length) (h3 : auditTs.length = mem.length)
    (hm : 2 ≤ mem.length)
    (hall : ∀ x ∈ (lists.zip readTs).zip es, 2 ≤ x.1.1.length ∧ x.1.2.length = x.1.1.length ∧
      x.2.length = x.1.1.length) :
    (memoryChecking lists mem readTs auditTs es g1 g2).isSome ↔
      fingerprint g1 g2 (cells ((List.range mem.length).map fun (i : Nat) => (i : F)) mem
          (List.replicate mem.length 0) +
        ((lists.zip readTs).zip es).foldr (fun x s => cells x.1.1 x.2 (x.1.2.map (· + 1)) + s) 0) =
      fingerprint g1 g2 (((lists.zip readTs).zip es).foldr (fun x s => cells x.1.1 x.2 x.1.2 + s) 0 +
        cells ((List.range mem.length).map fun (i : Nat) => (i : F)) mem auditTs) := by
  have hprod : ∀ (a v t : List F), v.length = a.length → t.length = a.length → 2 ≤ a.length →
      evaluateProductCircuit (hashCircuit g2 ((a.zip (v.zip t)).map (cellHash g1))) =
        some (fingerprint g1 g2 (cells a v t)) := by
    intro a v t hv ht ha
    unfold hashCircuit
    rw [C51_partial _ (by simp [hv, ht]; omega), fingerprint_cells]
  unfold memoryChecking
  rw [if_neg (by omega)]
  simp only []
  rw [circuitHash_cells _ _ _ _ (by simp) (by simp), circuitHash_cells _ _ _ _ (by simp) (by simp [h3]),
    mapM_some _ (fun x => (x.1.1.zip (x.2.zip x.1.2)).map (cellHash g1)) _
      (fun x hx => circuitHash_cells _ _ _ _ (hall x hx).2.2 (hall x hx).2.1),
    mapM_some _ (fun x => (x.1.1.zip (x.2.zip (x.1.2.map (· + 1)))).map (cellHash g1)) _
      (fun x hx => circuitHash_cells _ _ _ _ (hall x hx).2.2 (by simpa using (hall x hx).2.1))]
  simp only [Option.bind_eq_bind, Option.bind_some, List.mapM_map, Function.comp_def]
  rw [hprod _ _ _ (by simp) (by simp) (by simpa using hm),
    hprod _ _ _ (by simp) (by simp [h3]) (by simpa using hm),
    mapM_some _ (fun x => fingerprint g1 g2 (cells x.1.1 x.2 x.1.2)) _
      (fun x hx => hprod _ _ _ (hall x hx).2.2 (hall x hx).2.1 (hall x hx).1),
    mapM_some _ (fun x => fingerprint g1 g2 (cells x.1.1 x.2 (x.1.2.map (· + 1)))) _
      (fun x hx => hprod _ _ _ (hall x hx).2.2 (by simpa using (hall x hx).2.1) (hall x hx).1)]
  simp only [Option.bind_some]
  rw [fingerprint_add, fingerprint_add, fingerprint_foldr, fingerprint_foldr]
  split <;> simp_all

/-- The honest prover's `memory_checking` never aborts: for all address lists (two or more entries) into
a memory of two or more cells and all challenges. -/
theorem C49_honest [DecidableEq F] (lists : List (List Nat)) (n : Nat) (hn : ∀ l ∈ lists, l.length = n)
    (mem : List F) (hm : ∀ l ∈ lists, ∀ a ∈ l, a < mem.length) (hn2 : 2 ≤ n) (hm2 : 2 ≤ mem.length) :
    ∃ ts : AddrTimestamps F, memoryInTheHead lists n mem.length = some ts ∧
      ∀ g1 g2, (memoryChecking ts.addrs mem ts.readTs ts.auditTs (lists.map (readVals mem)) g1 g2).isSome := by
  obtain ⟨ts, e1, e2, e3, e4, e5, e6, e7⟩ := C49_complete lists n mem.length hn hm mem rfl
  refine ⟨ts, e1, fun g1 g2 => ?_⟩
  rw [C49_assertion _ _ _ _ _ _ _ (by rw [e4, e3]; simp) (by rw [e3]; simp) e6 hm2, e7]
  intro x hx
  obtain ⟨hx1, hx2⟩ := List.of_mem_zip (show (x.1, x.2) ∈ _ from hx)
  obtain ⟨hx3, hx4⟩ := List.of_mem_zip (show (x.1.1, x.1.2) ∈ _ from hx1)
  rw [e3] at hx3
  obtain ⟨l, hl, hl'⟩ := List.mem_map.1 hx3
  obtain ⟨l2, hl2, hl2'⟩ := List.mem_map.1 hx2
  have a1 : x.1.1.length = n := by rw [← hl']; simpa using hn l hl
  have a2 : x.2.length = n := by rw [← hl2']; simpa [readVals] using hn l2 hl2
  exact ⟨by omega, by rw [e5 _ hx4, a1], by rw [a1, a2]⟩

example : ∃ ts : AddrTimestamps F17, memoryInTheHead [[0, 3, 3], [3, 1, 0]] 3 4 = some ts ∧
    ∀ g1 g2, (memoryChecking ts.addrs [7, 8, 9, 10] ts.readTs ts.auditTs
      ([[0, 3, 3], [3, 1, 0]].map (readVals [7, 8, 9, 10])) g1 g2).isSome :=
  C49_honest [[0, 3, 3], [3, 1, 0]] 3 (by decide) ([7, 8, 9, 10] : List F17) (by decide) (by decide) (by decide)

open Polynomial in
/-- Cells whose fingerprints agree for more challenges than there are cells (and pairs of cells) are
equal as multisets. -/
theorem C49_fingerprint [DecidableEq F] (s t : Multiset (F × F × F)) (G1 G2 : Finset F)
    (h1 : 2 * (Multiset.card s + Multiset.card t) ^ 2 < G1.card)
    (h2 : max (Multiset.card s) (Multiset.card t) < G2.card)
    (h : ∀ g1 ∈ G1, ∀ g2 ∈ G2, fingerprint g1 g2 s = fingerprint g1 g2 t) : s = t := by
  -- for each gamma1 the hashed multisets agree
  have hmap : ∀ g1 ∈ G1, s.map (cellHash g1) = t.map (cellHash g1) := by
    intro g1 hg1
    have deg : ∀ u : Multiset (F × F × F),
        ((u.map fun c => C (cellHash g1 c) - X).prod : F[X]).natDegree ≤ Multiset.card u := by
      intro u
      refine le_trans (natDegree_multiset_prod_le _) ?_
      rw [Multiset.map_map]
      refine le_trans (Multiset.sum_le_card_nsmul _ 1 ?_) (by simp)
      intro x hx
      obtain ⟨c, _, rfl⟩ := Multiset.mem_map.1 hx
      exact le_trans (natDegree_sub_le _ _) (by simp)
    have hp : ((s.map fun c => C (cellHash g1 c) - X).prod : F[X]) =
        (t.map fun c => C (cellHash g1 c) - X).prod := by
      refine eq_of_natDegree_lt_card_of_eval_eq' _ _ G2 ?_ ?_
      · intro g2 hg2
        have := h g1 hg1 g2 hg2
        unfold fingerprint at this
        simpa [eval_multiset_prod, Multiset.map_map, Function.comp_def] using this
      · exact lt_of_le_of_lt (max_le_max (deg s) (deg t)) h2
    have hroots : ∀ u : Multiset (F × F × F),
        ((u.map fun c => C (cellHash g1 c) - X).prod : F[X]).roots = u.map (cellHash g1) := by
      intro u
      have hneg : ∀ c : F × F × F, (C (cellHash g1 c) - X : F[X]) = C (-1) * (X - C (cellHash g1 c)) := by
        intro c; simp
      have : (u.map fun c => C (cellHash g1 c) - X).prod =
          C ((-1 : F) ^ Multiset.card u) * ((u.map (cellHash g1)).map fun a => X - C a).prod := by
        rw [Multiset.map_map]
        induction u using Multiset.induction with
        | empty => simp
        | cons c u ih =>
          rw [Multiset.map_cons, Multiset.prod_cons, ih, Multiset.map_cons, Multiset.prod_cons,
            Multiset.card_cons, hneg, pow_succ, C_mul]
          simp only [Function.comp]
          ring
      rw [this, roots_C_mul _ (pow_ne_zero _ (by simp)), roots_multiset_prod_X_sub_C]
    rw [← hroots s, ← hroots t, hp]
  -- a gamma1 that separates all cells
  let U : Finset (F × F × F) := (s + t).toFinset
  let bad : Finset F := (U ×ˢ U).biUnion fun p =>
    (C (p.1.1 - p.2.1) * X ^ 2 + C (p.1.2.1 - p.2.2.1) * X + C (p.1.2.2 - p.2.2.2) : F[X]).roots.toFinset
  have hU : U.card ≤ Multiset.card s + Multiset.card t := by
    rw [← Multiset.card_add]; exact Multiset.toFinset_card_le _
  have hbad : bad.card ≤ 2 * (Multiset.card s + Multiset.card t) ^ 2 := by
    refine le_trans (Finset.card_biUnion_le_card_mul _ _ 2 ?_) ?_
    · intro p _
      refine le_trans (Multiset.toFinset_card_le _) (le_trans (card_roots' _) ?_)
      compute_degree
    · rw [Finset.card_product]
      nlinarith
  obtain ⟨g1, hg1, hgood⟩ : ∃ g1 ∈ G1, g1 ∉ bad := by
    by_contra hcon
    push Not at hcon
    have := Finset.card_le_card (show G1 ⊆ bad from hcon)
    omega
  have hinj : ∀ c ∈ U, ∀ d ∈ U, cellHash g1 c = cellHash g1 d → c = d := by
    intro c hc d hd hcd
    by_contra hne
    apply hgood
    refine Finset.mem_biUnion.2 ⟨(c, d), Finset.mem_product.2 ⟨hc, hd⟩, ?_⟩
    rw [Multiset.mem_toFinset, mem_roots']
    refine ⟨?_, ?_⟩
    · intro h0
      apply hne
      have c2 := congrArg (fun q : F[X] => q.coeff 2) h0
      have c1 := congrArg (fun q : F[X] => q.coeff 1) h0
      have c0 := congrArg (fun q : F[X] => q.coeff 0) h0
      simp only [coeff_add, coeff_C_mul, coeff_X_pow, coeff_X, coeff_C, coeff_zero] at c2 c1 c0
      norm_num at c2 c1 c0
      exact Prod.ext (sub_eq_zero.1 c2) (Prod.ext (sub_eq_zero.1 c1) (sub_eq_zero.1 c0))
    · simp only [IsRoot.def, eval_add, eval_mul, eval_C, eval_pow, eval_X]
      unfold cellHash at hcd
      linear_combination hcd
  have hback : ∀ u : Multiset (F × F × F), (∀ c ∈ u, c ∈ U) →
      (u.map (cellHash g1)).map (Function.invFunOn (cellHash g1) (U : Set (F × F × F))) = u := by
    intro u hu
    rw [Multiset.map_map]
    conv_rhs => rw [← Multiset.map_id u]
    refine Multiset.map_congr rfl ?_
    intro c hc
    exact (Set.InjOn.leftInvOn_invFunOn (fun x hx y hy => hinj x hx y hy)) (hu c hc)
  rw [← hback s (fun c hc => by simp [U, hc]), ← hback t (fun c hc => by simp [U, hc]), hmap g1 hg1]

instance : Fact (Nat.Prime 257) := ⟨by norm_num⟩

example : (({(1, 2, 3), (4, 5, 6)} : Multiset (ZMod 257 × ZMod 257 × ZMod 257)) = {(4, 5, 6), (1, 2, 3)}) := by
  refine C49_fingerprint _ _ Finset.univ Finset.univ (by simp [ZMod.card]) (by simp [ZMod.card]) ?_
  intro g1 _ g2 _
  simp [fingerprint, mul_comm]

/-- A multiset of times that is unchanged when every time is increased by one is empty, unless it is
larger than the characteristic. -/
theorem bump_fixed {K : Type} [DecidableEq K] [DecidableEq F] (s : Multiset (K × F))
    (hchar : ∀ k : Nat, 0 < k → k ≤ Multiset.card s → (k : F) ≠ 0)
    (h : s.map (fun c => (c.1, c.2 + 1)) = s) : s = 0 := by
  by_contra hne
  obtain ⟨c, hc⟩ := Multiset.exists_mem_of_ne_zero hne
  have hstep : ∀ k : Nat, (c.1, c.2 + (k : F)) ∈ s := by
    intro k
    induction k with
    | zero => simpa using hc
    | succ k ih =>
      have := Multiset.mem_map_of_mem (fun c : K × F => (c.1, c.2 + 1)) ih
      rw [h] at this
      simpa [add_assoc] using this
  have hcard : ((Finset.range (Multiset.card s + 1)).image fun k : Nat => (c.1, c.2 + (k : F))).card =
      Multiset.card s + 1 := by
    rw [Finset.card_image_of_injOn, Finset.card_range]
    intro i hi j hj hij
    simp only [Finset.coe_range, Set.mem_Iio] at hi hj
    simp only [Prod.mk.injEq, true_and, add_right_inj] at hij
    rcases lt_trichotomy i j with hlt | heq | hlt
    · exact absurd (by rw [Nat.cast_sub hlt.le, hij, sub_self]) (hchar (j - i) (by omega) (by omega))
    · exact heq
    · exact absurd (by rw [Nat.cast_sub hlt.le, hij, sub_self]) (hchar (i - j) (by omega) (by omega))
  have hle : ((Finset.range (Multiset.card s + 1)).image fun k : Nat => (c.1, c.2 + (k : F))).card ≤
      s.toFinset.card := by
    apply Finset.card_le_card
    intro x hx
    obtain ⟨k, _, rfl⟩ := Finset.mem_image.1 hx
    simpa using hstep k
  have := Multiset.toFinset_card_le s
  omega

theorem mem_cells_iff (a v t : List F) (hv : v.length = a.length) (ht : t.length = a.length) (c : F × F × F) :
    c ∈ cells a v t ↔ ∃ i : Nat, a[i]? = some c.1 ∧ v[i]? = some c.2.1 ∧ t[i]? = some c.2.2 := by
  unfold cells
  rw [Multiset.mem_coe, List.mem_iff_getElem?]
  constructor
  · rintro ⟨i, hi⟩
    rw [List.getElem?_zip_eq_some, List.getElem?_zip_eq_some] at hi
    exact ⟨i, hi⟩
  · rintro ⟨i, hi⟩
    exact ⟨i, by rw [List.getElem?_zip_eq_some, List.getElem?_zip_eq_some]; exact hi⟩

/-- Soundness of the multiset equation: if the initial and written cells are the read and final cells,
every claimed read returns the memory's value. The read addresses, values, times and the final times are
arbitrary field elements; a write repeats its read with the time plus one; the number of reads is below the
characteristic. -/
theorem C49_sound [DecidableEq F] (mem auditTs : List F) (haud : auditTs.length = mem.length)
    (reads : Multiset (F × F × F))
    (hchar : ∀ k : Nat, 0 < k → k ≤ Multiset.card reads → (k : F) ≠ 0)
    (h : cells ((List.range mem.length).map fun (i : Nat) => (i : F)) mem (List.replicate mem.length 0) +
        reads.map (fun c => (c.1, c.2.1, c.2.2 + 1)) =
      reads + cells ((List.range mem.length).map fun (i : Nat) => (i : F)) mem auditTs) :
    ∀ c ∈ reads, ∃ i : Nat, c.1 = i ∧ mem[i]? = some c.2.1 := by
  classical
  let P : F × F × F → Prop := fun c => ¬ ∃ i : Nat, c.1 = i ∧ mem[i]? = some c.2.1
  have hcells : ∀ t : List F, t.length = mem.length →
      (cells ((List.range mem.length).map fun (i : Nat) => (i : F)) mem t).filter P = 0 := by
    intro t ht
    rw [Multiset.filter_eq_nil]
    intro c hc
    rw [mem_cells_iff _ _ _ (by simp) (by simp [ht])] at hc
    obtain ⟨i, h1, h2, _⟩ := hc
    rw [List.getElem?_map, Option.map_eq_some_iff] at h1
    obtain ⟨j, hj, hj'⟩ := h1
    obtain ⟨hj1, hj2⟩ := List.getElem?_eq_some_iff.1 hj
    rw [List.getElem_range] at hj2
    simp only [P, not_not]
    exact ⟨i, by rw [← hj', hj2], h2⟩
  have hf := congrArg (Multiset.filter P) h
  rw [Multiset.filter_add, Multiset.filter_add, hcells _ (by simp), hcells _ haud, zero_add, add_zero,
    Multiset.filter_map] at hf
  have hbump : (reads.filter P).map (fun c : F × F × F => ((c.1, c.2.1), c.2.2)) = 0 := by
    apply bump_fixed (K := F × F)
    · intro k h0 hk
      refine hchar k h0 (le_trans hk ?_)
      rw [Multiset.card_map]
      exact Multiset.card_le_card (Multiset.filter_le _ _)
    · conv_rhs => rw [← hf]
      rw [Multiset.map_map, Multiset.map_map]
      rfl
  rw [Multiset.map_eq_zero, Multiset.filter_eq_nil] at hbump
  intro c hc
  have := hbump c hc
  simpa only [P, not_not] using this

/-- A read of cell 1 and two reads of cell 0. -/
example : ∀ c ∈ ({(1, 8, 0), (0, 7, 0), (0, 7, 1)} : Multiset (F17 × F17 × F17)),
    ∃ i : Nat, c.1 = i ∧ ([7, 8] : List F17)[i]? = some c.2.1 := by
  refine C49_sound [7, 8] [2, 1] rfl _ ?_ (by decide)
  intro k h0 hk
  have hk' : k ≤ 3 := by simpa using hk
  interval_cases k <;> decide

/-- From the assertion to the values: if the prover's claimed reads (any columns of matching lengths) pass
`memory_checking` for sufficiently many challenges, all of them return the memory's values. -/
theorem C49_checked [DecidableEq F] (lists readTs es : List (List F)) (mem auditTs : List F)
    (h1 : readTs.length = lists.length) (h2 : es.length = lists.length) (h3 : auditTs.length = mem.length)
    (hm : 2 ≤ mem.length) (N : Nat)
    (hall : ∀ x ∈ (lists.zip readTs).zip es, 2 ≤ x.1.1.length ∧ x.1.2.length = x.1.1.length ∧
      x.2.length = x.1.1.length)
    (hN : (lists.map List.length).sum ≤ N)
    (hchar : ∀ k : Nat, 0 < k → k ≤ N → (k : F) ≠ 0)
    (G1 G2 : Finset F) (hG1 : 8 * (mem.length + N) ^ 2 < G1.card) (hG2 : mem.length + N < G2.card)
    (hacc : ∀ g1 ∈ G1, ∀ g2 ∈ G2, (memoryChecking lists mem readTs auditTs es g1 g2).isSome) :
    ∀ (j i : Nat) (l e : List F) (a v : F), lists[j]? = some l → es[j]? = some e → l[i]? = some a →
      e[i]? = some v → ∃ k : Nat, a = k ∧ mem[k]? = some v := by
  let R := ((lists.zip readTs).zip es).foldr (fun x s => cells x.1.1 x.2 x.1.2 + s) 0
  have hW : ∀ L : List ((List F × List F) × List F),
      L.foldr (fun x s => cells x.1.1 x.2 (x.1.2.map (· + 1)) + s) 0 =
      (L.foldr (fun x s => cells x.1.1 x.2 x.1.2 + s) 0).map (fun c => (c.1, c.2.1, c.2.2 + 1)) := by
    intro L
    induction L with
    | nil => simp
    | cons x L ih =>
      rw [List.foldr_cons, List.foldr_cons, ih, Multiset.map_add]
      congr 1
      unfold cells
      rw [Multiset.map_coe, List.zip_map_right, List.zip_map_right]
      rfl
  have hcardR : ∀ (A B C : List (List F)), Multiset.card (((A.zip B).zip C).foldr
      (fun x s => cells x.1.1 x.2 x.1.2 + s) 0) ≤ (A.map List.length).sum := by
    intro A
    induction A with
    | nil => intro B C; simp
    | cons a A ih =>
      intro B C
      cases B with
      | nil => simp
      | cons b B =>
        cases C with
        | nil => simp
        | cons c C =>
          have := ih B C
          simp only [List.zip_cons_cons, List.foldr_cons, Multiset.card_add, List.map_cons, List.sum_cons]
          have : Multiset.card (cells a c b) ≤ a.length := by simp [cells]
          omega
  have hR : Multiset.card R ≤ N := le_trans (hcardR _ _ _) hN
  have hI : ∀ t : List F, Multiset.card (cells ((List.range mem.length).map fun (i : Nat) => (i : F)) mem t) ≤
      mem.length := by intro t; simp [cells]
  have heq := C49_fingerprint
    (cells ((List.range mem.length).map fun (i : Nat) => (i : F)) mem (List.replicate mem.length 0) +
      R.map (fun c => (c.1, c.2.1, c.2.2 + 1)))
    (R + cells ((List.range mem.length).map fun (i : Nat) => (i : F)) mem auditTs) G1 G2
    (by
      refine lt_of_le_of_lt ?_ hG1
      have a1 := hI (List.replicate mem.length 0)
      have a2 := hI auditTs
      simp only [Multiset.card_add, Multiset.card_map]
      have : (Multiset.card (cells ((List.range mem.length).map fun (i : Nat) => (i : F)) mem
          (List.replicate mem.length 0)) + Multiset.card R + (Multiset.card R + Multiset.card
          (cells ((List.range mem.length).map fun (i : Nat) => (i : F)) mem auditTs))) ≤
          2 * (mem.length + N) := by omega
      nlinarith)
    (by
      refine lt_of_le_of_lt ?_ hG2
      have a1 := hI (List.replicate mem.length 0)
      have a2 := hI auditTs
      simp only [Multiset.card_add, Multiset.card_map]
      omega)
    (fun g1 hg1 g2 hg2 => by
      have := (C49_assertion lists readTs es mem auditTs g1 g2 h1 h2 h3 hm hall).1 (hacc g1 hg1 g2 hg2)
      rwa [hW] at this)
  have hs := C49_sound mem auditTs h3 R (fun k h0 hk => hchar k h0 (le_trans hk hR)) heq
  intro j i l e a v hl he ha hv
  obtain ⟨hj, hj'⟩ := List.getElem?_eq_some_iff.1 hl
  have hr : readTs[j]? = some readTs[j] := List.getElem?_eq_getElem (by omega)
  have hmem : ((l, readTs[j]), e) ∈ (lists.zip readTs).zip es := by
    refine List.mem_iff_getElem?.2 ⟨j, ?_⟩
    rw [List.getElem?_zip_eq_some, List.getElem?_zip_eq_some]
    exact ⟨⟨hl, hr⟩, he⟩
  obtain ⟨_, b2, b3⟩ := hall _ hmem
  simp only at b2 b3
  have hi : i < l.length := (List.getElem?_eq_some_iff.1 ha).1
  have hc : (a, v, (readTs[j])[i]) ∈ cells l e readTs[j] :=
    (mem_cells_iff _ _ _ b3 b2 _).2 ⟨i, ha, hv, List.getElem?_eq_getElem (by omega)⟩
  have hin : ∀ L : List ((List F × List F) × List F), ∀ x ∈ L, ∀ c ∈ cells x.1.1 x.2 x.1.2,
      c ∈ L.foldr (fun x s => cells x.1.1 x.2 x.1.2 + s) 0 := by
    intro L
    induction L with
    | nil => intro x hx; simp at hx
    | cons y L ih =>
      intro x hx c hc
      rw [List.foldr_cons, Multiset.mem_add]
      rcases List.mem_cons.1 hx with rfl | hx
      · exact Or.inl hc
      · exact Or.inr (ih x hx c hc)
  exact hs _ (hin _ _ hmem _ hc)

/-- Two reads of a two-cell memory over the field with 257 elements: the honest columns meet the
hypotheses. -/
example : ∃ ts : AddrTimestamps (ZMod 257), memoryInTheHead [[1, 1]] 2 2 = some ts ∧
    ∀ (j i : Nat) (l e : List (ZMod 257)) (a v : ZMod 257), ts.addrs[j]? = some l →
      ([[1, 1]].map (readVals [7, 8]))[j]? = some e → l[i]? = some a →
      e[i]? = some v → ∃ k : Nat, a = k ∧ ([7, 8] : List (ZMod 257))[k]? = some v := by
  obtain ⟨ts, h, hacc⟩ := C49_honest [[1, 1]] 2 (by decide) ([7, 8] : List (ZMod 257)) (by decide)
    (by decide) (by decide)
  refine ⟨ts, h, ?_⟩
  have hts : ts = ⟨[[1, 1]], [[1, 1]], [[0, 1]], [0, 2]⟩ := by
    have h' : (memoryInTheHead [[1, 1]] 2 2 : Option (AddrTimestamps (ZMod 257))) =
      some ⟨[[1, 1]], [[1, 1]], [[0, 1]], [0, 2]⟩ := by simp [memoryInTheHead, readPasses, readPass]
    exact Option.some.inj (h.symm.trans h')
  subst hts
  refine C49_checked [[1, 1]] [[0, 1]] ([[1, 1]].map (readVals [7, 8])) [7, 8] [0, 2] rfl rfl rfl (by simp) 2
    ?_ (by simp) ?_ Finset.univ Finset.univ
    (by simp [ZMod.card]) (by simp [ZMod.card]) (fun g1 _ g2 _ => hacc g1 g2)
  · simp [readVals]
  · intro k h0 hk
    interval_cases k <;> decide

end Zkp.Spartan
