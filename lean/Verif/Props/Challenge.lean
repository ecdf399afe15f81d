/- C108 and C109: from hashes to challenges. -/
import Verif.Model.Challenge
import Verif.Props.Ristretto
import Mathlib.SetTheory.Cardinal.Finite

namespace Zkp.Chal

open Zkp.Ristretto (leVal leVal_inj)

set_option linter.unusedSectionVars false

theorem leVal_lt (bs : List UInt8) : leVal bs < 256 ^ bs.length := by
  induction bs with
  | nil => simp [leVal]
  | cons b bs ih =>
    have e : leVal (b :: bs) = b.toNat + 256 * leVal bs := rfl
    have := b.toNat_lt
    rw [e, List.length_cons, pow_succ]
    omega

theorem leVal_surj (n v : Nat) (h : v < 256 ^ n) : ∃ bs : List UInt8, bs.length = n ∧ leVal bs = v := by
  induction n generalizing v with
  | zero => exact ⟨[], rfl, by simp [leVal]; omega⟩
  | succ n ih =>
    rw [pow_succ] at h
    obtain ⟨bs, hl, hv⟩ := ih (v / 256) (by omega)
    refine ⟨UInt8.ofNat (v % 256) :: bs, by simp [hl], ?_⟩
    have e : leVal (UInt8.ofNat (v % 256) :: bs) = (UInt8.ofNat (v % 256)).toNat + 256 * leVal bs := rfl
    rw [e, hv, UInt8.toNat_ofNat']
    omega

/-- C108: for a field of more than `2 ^ 248` elements whose representation has at most eight bits to spare, every hash of at
least 31 bytes gives a challenge without a panic: the number of its first 31 bytes. Different first 31 bytes give different
challenges, and every number below `2 ^ 248` is reached. -/
theorem C108_value (p shave : Nat) (hp : 2 ^ 248 ≤ p) (hs : shave ≤ 8) (bytes : List UInt8) (hb : 31 ≤ bytes.length) :
    ∃ c, randomBytesToFr p shave bytes = some c ∧ c.val = leVal (bytes.take 31) ∧ c.val < 2 ^ 248 := by
  have hl : (bytes.take 31).length = 31 := by simp [hb]
  have hv := leVal_lt (bytes.take 31)
  rw [hl] at hv
  have hv' : leVal (bytes.take 31) < 2 ^ 248 := hv
  have hp0 : NeZero p := ⟨by have := Nat.two_pow_pos 248; omega⟩
  have hm : leVal ((bytes.take 31).take 32) % 2 ^ (256 - shave) = leVal (bytes.take 31) := by
    rw [List.take_of_length_le (by omega)]
    exact Nat.mod_eq_of_lt (hv'.trans_le (Nat.pow_le_pow_right (by decide) (by omega)))
  have hc : ((leVal (bytes.take 31) : Nat) : ZMod p).val = leVal (bytes.take 31) := ZMod.val_cast_of_lt (by omega)
  refine ⟨(leVal (bytes.take 31) : Nat), ?_, hc, by rw [hc]; exact hv'⟩
  rw [randomBytesToFr, if_neg (by omega)]
  simp only [fromRandomBytes]
  rw [hm, if_pos (by omega)]

theorem C108_injective (p shave : Nat) (hp : 2 ^ 248 ≤ p) (hs : shave ≤ 8) (b b' : List UInt8) (hb : 31 ≤ b.length)
    (hb' : 31 ≤ b'.length) : randomBytesToFr p shave b = randomBytesToFr p shave b' ↔ b.take 31 = b'.take 31 := by
  obtain ⟨c, h, hc, -⟩ := C108_value p shave hp hs b hb
  obtain ⟨c', h', hc', -⟩ := C108_value p shave hp hs b' hb'
  constructor
  · intro e
    rw [h, h'] at e
    refine leVal_inj _ _ (by simp [hb, hb']) ?_
    rw [← hc, ← hc', Option.some.inj e]
  · intro e
    have : randomBytesToFr p shave b = fromRandomBytes p shave (b.take 31) := if_neg (by omega)
    rw [this, e]
    exact (if_neg (by omega)).symm

theorem C108_surjective (p shave : Nat) (hp : 2 ^ 248 ≤ p) (hs : shave ≤ 8) (c : ZMod p) (hc : c.val < 2 ^ 248) :
    ∃ b : List UInt8, b.length = 31 ∧ randomBytesToFr p shave b = some c := by
  obtain ⟨b, hl, hv⟩ := leVal_surj 31 c.val hc
  have hp0 : NeZero p := ⟨by have := Nat.two_pow_pos 248; omega⟩
  obtain ⟨c', h, hc', -⟩ := C108_value p shave hp hs b (by omega)
  refine ⟨b, hl, ?_⟩
  rw [h, ZMod.val_injective p (hc'.trans (by rw [List.take_of_length_le (by omega), hv]))]

/-- Of the `2 ^ 248` possible hashes of 31 bytes at most `n` fall into a set of `n` field elements. (The bounds on bad challenges
of the other properties thus carry over to hashes, with `2 ^ 248` in place of the size of the field.) -/
theorem C108_count (p shave : Nat) (hp : 2 ^ 248 ≤ p) (hs : shave ≤ 8) (bad : Finset (ZMod p)) :
    Nat.card {b : Fin 31 → Fin 256 // ∃ c ∈ bad, randomBytesToFr p shave ((List.ofFn b).map UInt8.ofFin) = some c} ≤ bad.card ∧
      Nat.card (Fin 31 → Fin 256) = 2 ^ 248 := by
  constructor
  · have hex : ∀ b : {b : Fin 31 → Fin 256 // ∃ c ∈ bad, randomBytesToFr p shave ((List.ofFn b).map UInt8.ofFin) = some c},
        ∃ c : bad, randomBytesToFr p shave ((List.ofFn b.1).map UInt8.ofFin) = some c.1 := fun b => by
      obtain ⟨c, hc, h⟩ := b.2
      exact ⟨⟨c, hc⟩, h⟩
    let f : {b : Fin 31 → Fin 256 // ∃ c ∈ bad, randomBytesToFr p shave ((List.ofFn b).map UInt8.ofFin) = some c} → bad :=
      fun b => (hex b).choose
    have hinj : Function.Injective UInt8.ofFin := fun x y h => by
      have := congrArg UInt8.toFin h
      simpa using this
    have hf : Function.Injective f := by
      intro x y e
      have hx := (hex x).choose_spec
      have hy := (hex y).choose_spec
      have e' : (hex x).choose = (hex y).choose := e
      rw [e', ← hy] at hx
      have := (C108_injective p shave hp hs ((List.ofFn x.1).map UInt8.ofFin) ((List.ofFn y.1).map UInt8.ofFin) (by simp) (by simp)).1 hx
      rw [List.take_of_length_le (by simp), List.take_of_length_le (by simp)] at this
      exact Subtype.ext (List.ofFn_injective (List.map_injective_iff.2 hinj this))
    simpa using Nat.card_le_card_of_injective f hf
  · rw [Nat.card_fun, Nat.card_fin, Nat.card_fin]
    rfl

/-- The scalar field of BN254. -/
abbrev bn254 : Nat := 21888242871839275222246405745257275088548364400416034343698204186575808495617

/-- The scalar field of BLS12-381. -/
abbrev bls12381 : Nat := 52435875175126190479447740508185965837690552500527637822603658699938581184513

/-- The three scalar fields used in the repository, with the spare bits of their four limbs. -/
example (bytes : List UInt8) (hb : bytes.length = 31 ∨ bytes.length = 32) :
    (randomBytesToFr bn254 2 bytes).isSome ∧ (randomBytesToFr bls12381 1 bytes).isSome ∧
      (randomBytesToFr Ristretto.order 3 bytes).isSome := by
  obtain ⟨c, h, -⟩ := C108_value bn254 2 (by norm_num) (by decide) bytes (by omega)
  obtain ⟨c', h', -⟩ := C108_value bls12381 1 (by norm_num) (by decide) bytes (by omega)
  obtain ⟨c'', h'', -⟩ := C108_value Ristretto.order 3 (by norm_num [Ristretto.order]) (by decide) bytes (by omega)
  rw [h, h', h'']
  exact ⟨rfl, rfl, rfl⟩

/-- Without the cut to 31 bytes some hashes would give no challenge. -/
example : fromRandomBytes bn254 2 (List.replicate 32 255) = none ∧
    randomBytesToFr bn254 2 (List.replicate 32 255) = some ((2 ^ 248 - 1 : Nat) : ZMod bn254) := by
  constructor <;> decide +kernel

example : randomBytesToFr bn254 2 (List.replicate 30 1 ++ [2, 3]) = randomBytesToFr bn254 2 (List.replicate 30 1 ++ [2, 4]) ∧
    randomBytesToFr bn254 2 (List.replicate 30 1 ++ [2, 3]) ≠ randomBytesToFr bn254 2 (List.replicate 30 1 ++ [1, 3]) :=
  ⟨(C108_injective bn254 2 (by norm_num) (by decide) _ _ (by simp) (by simp)).2 (by decide),
    fun h => absurd ((C108_injective bn254 2 (by norm_num) (by decide) _ _ (by simp) (by simp)).1 h) (by decide)⟩

example : ∃ b : List UInt8, b.length = 31 ∧ randomBytesToFr bn254 2 b = some ((2 ^ 200 + 5 : Nat) : ZMod bn254) :=
  C108_surjective bn254 2 (by norm_num) (by decide) _ (by
    have : NeZero bn254 := ⟨by decide⟩
    rw [ZMod.val_cast_of_lt (by norm_num)]; norm_num)

example : Nat.card {b : Fin 31 → Fin 256 // ∃ c ∈ ({3, 5} : Finset (ZMod bn254)),
    randomBytesToFr bn254 2 ((List.ofFn b).map UInt8.ofFin) = some c} ≤ 2 :=
  ((C108_count bn254 2 (by norm_num) (by decide) {3, 5}).1).trans (Finset.card_le_two)

/-! ### C109 -/

/-- The seed after `from_seed` with the first string and `absorb` with the others. -/
def seedAfter (hash : List UInt8 → List UInt8) (first : List UInt8) (more : List (List UInt8)) : List UInt8 :=
  more.foldl (absorb hash) (fromSeed hash first)

/-- Everything that is hashed on the way. -/
def hashed (hash : List UInt8 → List UInt8) (first : List UInt8) (more : List (List UInt8)) : List (List UInt8) :=
  first :: (List.range more.length).map fun i => more.getD i [] ++ seedAfter hash first (more.take i)

/-- Two different strings, one hashed on each way, with the same hash. -/
def Collision (hash : List UInt8 → List UInt8) (a b : List (List UInt8)) : Prop :=
  ∃ x ∈ a, ∃ y ∈ b, x ≠ y ∧ hash x = hash y

/-- C109: two histories that lead to the same state are equal, unless the hashes made on the way collide. -/
def C109_statement : Prop :=
  ∀ (len : Nat) (hash : List UInt8 → List UInt8), (∀ x, (hash x).length = len) → 32 ≤ len →
    ∀ (a b : List UInt8) (as bs : List (List UInt8)), seedAfter hash a as = seedAfter hash b bs →
      (a = b ∧ as = bs) ∨ Collision hash (hashed hash a as) (hashed hash b bs)

theorem seedAfter_snoc (hash : List UInt8 → List UInt8) (a m : List UInt8) (as : List (List UInt8)) :
    seedAfter hash a (as ++ [m]) = hash (m ++ seedAfter hash a as) := by
  simp [seedAfter, absorb]

theorem hashed_snoc (hash : List UInt8 → List UInt8) (a m : List UInt8) (as : List (List UInt8)) :
    hashed hash a (as ++ [m]) = hashed hash a as ++ [m ++ seedAfter hash a as] := by
  unfold hashed
  rw [List.length_append, List.length_singleton, List.range_succ, List.map_append, List.cons_append]
  congr 2
  · apply List.map_congr_left
    intro i hi
    have hi := List.mem_range.1 hi
    rw [List.getD_eq_getElem?_getD, List.getElem?_append_left hi, ← List.getD_eq_getElem?_getD, List.take_append_of_le_length hi.le]
  · simp

/-- The claim holds for histories of equal length, as the protocols have them. Missing: histories of different lengths. -/
theorem C109_partial (len : Nat) (hash : List UInt8 → List UInt8) (hl : ∀ x, (hash x).length = len) (a b : List UInt8)
    (as bs : List (List UInt8)) (hn : as.length = bs.length) (h : seedAfter hash a as = seedAfter hash b bs) :
    (a = b ∧ as = bs) ∨ Collision hash (hashed hash a as) (hashed hash b bs) := by
  induction as using List.reverseRecOn generalizing bs with
  | nil =>
    obtain rfl := List.length_eq_zero_iff.1 hn.symm
    by_cases e : a = b
    · exact Or.inl ⟨e, rfl⟩
    · exact Or.inr ⟨a, by simp [hashed], b, by simp [hashed], e, h⟩
  | append_singleton as m ih =>
    rcases List.eq_nil_or_concat bs with rfl | ⟨bs, m', rfl⟩
    · simp at hn
    · rw [List.concat_eq_append] at hn h ⊢
      rw [seedAfter_snoc, seedAfter_snoc] at h
      rw [hashed_snoc, hashed_snoc]
      by_cases e : m ++ seedAfter hash a as = m' ++ seedAfter hash b bs
      · have hs : ∀ (c : List UInt8) (cs : List (List UInt8)), (seedAfter hash c cs).length = len := by
          intro c cs
          rcases List.eq_nil_or_concat cs with rfl | ⟨cs, n, rfl⟩
          · exact hl _
          · rw [List.concat_eq_append, seedAfter_snoc]; exact hl _
        obtain ⟨rfl, e2⟩ := List.append_inj' e (by rw [hs, hs])
        rcases ih bs (by simpa using hn) e2 with ⟨rfl, rfl⟩ | ⟨x, hx, y, hy, hxy, he⟩
        · exact Or.inl ⟨rfl, rfl⟩
        · exact Or.inr ⟨x, List.mem_append_left _ hx, y, List.mem_append_left _ hy, hxy, he⟩
      · exact Or.inr ⟨_, List.mem_append_right _ (List.mem_singleton_self _), _, List.mem_append_right _ (List.mem_singleton_self _), e, h⟩

/-- Whatever the hash function: starting from `b ++ hash a` leads to the same state as starting from `a` and absorbing `b`. -/
theorem C109_extension (hash : List UInt8 → List UInt8) (a b : List UInt8) :
    seedAfter hash a [b] = seedAfter hash (b ++ hash a) [] := rfl

/-- Histories of different lengths: unless hashes collide, they lead to the same state exactly if the shorter one begins
with the string that the longer one hashes in one of its `absorb`s, and then absorbs the same strings. -/
theorem C109_exact (len : Nat) (hash : List UInt8 → List UInt8) (hl : ∀ x, (hash x).length = len) (a b : List UInt8)
    (as bs : List (List UInt8)) (hn : bs.length < as.length)
    (hcol : ¬Collision hash (hashed hash a as) (hashed hash b bs)) :
    seedAfter hash a as = seedAfter hash b bs ↔ ∃ pre m, as = pre ++ m :: bs ∧ b = m ++ seedAfter hash a pre := by
  constructor
  · intro h
    induction bs using List.reverseRecOn generalizing as with
    | nil =>
      rcases List.eq_nil_or_concat as with rfl | ⟨pre, m, rfl⟩
      · simp at hn
      · rw [List.concat_eq_append] at hcol h ⊢
        refine ⟨pre, m, rfl, ?_⟩
        rw [seedAfter_snoc] at h
        by_contra e
        exact hcol ⟨m ++ seedAfter hash a pre, by rw [hashed_snoc]; simp, b, by simp [hashed], Ne.symm e, h⟩
    | append_singleton bs m' ih =>
      rcases List.eq_nil_or_concat as with rfl | ⟨as, m, rfl⟩
      · simp at hn
      · rw [List.concat_eq_append] at hcol h hn ⊢
        rw [hashed_snoc, hashed_snoc] at hcol
        rw [seedAfter_snoc, seedAfter_snoc] at h
        have e : m ++ seedAfter hash a as = m' ++ seedAfter hash b bs := by
          by_contra e
          exact hcol ⟨_, List.mem_append_right _ (List.mem_singleton_self _), _,
            List.mem_append_right _ (List.mem_singleton_self _), e, h⟩
        have hs : ∀ (c : List UInt8) (cs : List (List UInt8)), (seedAfter hash c cs).length = len := by
          intro c cs
          rcases List.eq_nil_or_concat cs with rfl | ⟨cs, n, rfl⟩
          · exact hl _
          · rw [List.concat_eq_append, seedAfter_snoc]; exact hl _
        obtain ⟨rfl, e2⟩ := List.append_inj' e (by rw [hs, hs])
        obtain ⟨pre, x, rfl, hb⟩ := ih as (by simpa using hn) (fun ⟨x, hx, y, hy, hxy, he⟩ =>
          hcol ⟨x, List.mem_append_left _ hx, y, List.mem_append_left _ hy, hxy, he⟩) e2
        exact ⟨pre, x, by simp, hb⟩
  · rintro ⟨pre, m, rfl, rfl⟩
    simp [seedAfter, absorb, fromSeed]

/-- A hash function for examples: the first 32 bytes, zeros where there are none. -/
def exHash (x : List UInt8) : List UInt8 := (x ++ List.replicate 32 0).take 32

theorem exHash_length (x : List UInt8) : (exHash x).length = 32 := by simp [exHash]

theorem C109_violated : ¬C109_statement := by
  intro h
  rcases h 32 exHash exHash_length (by decide) [1] ([2] ++ exHash [1]) [[2]] [] (C109_extension exHash [1] [2]) with ⟨e, -⟩ | h
  · exact absurd e (by decide)
  · revert h
    unfold Collision
    decide +kernel

/-- Two strings absorbed after the first one; the shorter history has only the last of them left. -/
example : ¬Collision exHash (hashed exHash [1] [[2], [3]]) (hashed exHash ([2] ++ exHash [1]) [[3]]) ∧
    seedAfter exHash [1] [[2], [3]] = seedAfter exHash ([2] ++ exHash [1]) [[3]] := by
  have hc : ¬Collision exHash (hashed exHash [1] [[2], [3]]) (hashed exHash ([2] ++ exHash [1]) [[3]]) := by
    unfold Collision
    decide +kernel
  exact ⟨hc, (C109_exact 32 exHash exHash_length [1] _ _ _ (by decide) hc).2 ⟨[], [2], rfl, rfl⟩⟩

/-- A case in which the hypotheses hold, the histories differ, and the collision is found in the first of two steps. -/
example : Collision exHash (hashed exHash (List.replicate 33 1) [[2]]) (hashed exHash (List.replicate 34 1) [[2]]) :=
  (C109_partial 32 exHash exHash_length (List.replicate 33 1) (List.replicate 34 1) [[2]] [[2]] rfl (by decide +kernel)).resolve_left
    fun h => absurd h.1 (by decide)

/-- What the stream of challenges starts from is the whole seed when that has 32 bytes, as in Marlin. -/
theorem C109_stream (seed : List UInt8) (h : seed.length = 32) : streamSeed seed = some seed := by
  rw [streamSeed, if_neg (by omega), List.take_of_length_le (by omega)]

example : streamSeed (exHash [1, 2, 3]) = some (exHash [1, 2, 3]) := C109_stream _ (exHash_length _)

end Zkp.Chal
