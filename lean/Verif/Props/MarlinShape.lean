/- Properties C84 (shape of accepted Marlin proofs) and C85 (when Marlin's indexer succeeds). -/
import Verif.Props.MarlinComplete

set_option linter.unusedSectionVars false
set_option linter.unusedSimpArgs false

namespace Zkp.Marlin

open Polynomial

variable {F : Type} [Field F] [DecidableEq F]
variable {G1 G2 GT : Type} [AddCommGroup G1] [AddCommGroup G2] [AddCommGroup GT]
  [Module F G1] [Module F G2] [Module F GT]

/-! ### C84 -/

/-- The full statement: an accepted proof consists of three vectors of four, three and two commitments, of 21
evaluations, and of one opening for every point. -/
def C84_statement (F G1 G2 GT : Type) [Field F] [DecidableEq F] [AddCommGroup G1] [AddCommGroup G2]
    [AddCommGroup GT] [Module F G1] [Module F G2] [Module F GT] [DecidableEq GT]
    (mk : Nat → Option (Domain F)) (rng : FsRng F G1 G2) (e : G1 →ₗ[F] G2 →ₗ[F] GT) : Prop :=
  ∀ (N : Nat) (τ : F) (g γ : G1) (h : G2) (cs : CS F) (ipk : IndexProverKey F G1 G2)
    (ivk : IndexVerifierKey F G1 G2) (proof : Proof F G1) (pi : List F),
    index false mk (Kzg.setup N τ g γ h) cs = .ok (ipk, ivk) → verify mk rng e ivk proof pi = .ok true →
    proof.commitments.map List.length = [4, 3, 2] ∧ proof.evaluations.length = 21 ∧ proof.opening_proofs.length ≤ 2

theorem zip_label {α : Type} {l : List α} {labels : List String} {x : String} {n : Nat}
    (hn : x ∉ labels.take n) {t : α × String} (ht : t ∈ l.zip labels) (hx : t.2 = x) : n < l.length := by
  obtain ⟨i, hi, hti⟩ := List.mem_iff_getElem.mp ht
  rw [List.length_zip] at hi
  rw [List.getElem_zip] at hti
  by_contra hc
  apply hn
  rw [← hx, ← hti, List.mem_take_iff_getElem]
  exact ⟨i, by omega, rfl⟩

theorem evalMap_length {qs : List (String × F)} {evals : List F} {l : String} {z v : F} {n : Nat}
    (h : evalMap qs evals l z = some v) (hn : l ∉ (qs.map (·.1)).take n) : n < evals.length := by
  unfold evalMap at h
  rw [Option.map_eq_some_iff] at h
  obtain ⟨t, ht, -⟩ := h
  have h1 := List.mem_of_find?_eq_some ht
  have h2 := List.find?_some ht
  simp only [decide_eq_true_eq] at h2
  have h3 : (t.2, t.1.1) ∈ evals.zip (qs.map (·.1)) := by
    rw [List.zip_map_right, List.mem_map]
    refine ⟨(t.2, t.1), ?_, rfl⟩
    rw [← List.zip_swap]
    exact List.mem_map_of_mem (f := Prod.swap) h1
  exact zip_label hn h3 (by rw [h2])

/-- What the verifier insists on, for every key and proof: at least three vectors with enough commitments for
all labels, at least 21 evaluations, square matrices, a domain for the public input, and exactly one opening
for every point.  Missing for the full statement (which is false, see `C84_violated`): that there is nothing
else in the proof, and that the vectors have their lengths. -/
theorem C84_partial [DecidableEq GT] {mk : Nat → Option (Domain F)} {rng : FsRng F G1 G2}
    {e : G1 →ₗ[F] G2 →ₗ[F] GT} {ivk : IndexVerifierKey F G1 G2} {proof : Proof F G1} {pi : List F}
    (h : verify mk rng e ivk proof pi = .ok true) :
    (∃ c1 c2 c3 rest s, proof.commitments = c1 :: c2 :: c3 :: rest ∧
      21 ≤ ivk.index_comms.length + c1.length + c2.length + c3.length ∧
      challenges mk rng ivk pi c1 c2 c3 = .ok s ∧
      proof.opening_proofs.length = if s.beta = s.gamma then 1 else 2) ∧
    21 ≤ proof.evaluations.length ∧ ivk.info.num_constraints = ivk.info.num_variables ∧
    (∃ D, mk (pi.length + 1) = some D) := by
  unfold verify at h
  split at h
  · rename_i c1 c2 c3 rest hc
    unfold verifyWith at h
    obtain ⟨s, hs, h⟩ := Kzg.bind_ok h
    dsimp only at h
    obtain ⟨bounds, hb, h⟩ := Kzg.bind_ok h
    obtain ⟨ok, hok, h⟩ := Kzg.bind_ok h
    have hsq : ivk.info.num_constraints = ivk.info.num_variables := by
      unfold challenges at hs
      dsimp only at hs
      split at hs
      · cases hs
      · rename_i hne
        exact not_not.mp hne
    obtain ⟨D, hD, hok⟩ := Kzg.bind_ok hok
    obtain ⟨_, -, hok⟩ := Kzg.bind_ok hok
    obtain ⟨_, -, hok⟩ := Kzg.bind_ok hok
    obtain ⟨zb, hzb, -⟩ := Kzg.bind_ok hok
    have hev : 21 ≤ proof.evaluations.length := by
      unfold getEval at hzb
      split at hzb
      · rename_i v hv
        exact evalMap_length (n := 20) hv (by simp [querySet])
      · cases hzb
    split at h
    · have h := liftPc_ok h
      unfold Kzg.batchCheck at h
      split at h
      · cases h
      · rename_i hlen
        have hlen := not_not.mp hlen
        obtain ⟨bs, hbs, -⟩ := Kzg.bind_ok h
        refine ⟨⟨c1, c2, c3, rest, s, hc, ?_, hs, ?_⟩, hev, hsq, D, domain_ok hD⟩
        · have hg : ∃ ls, "h_2" ∈ ls ∧ (s.gamma, ls) ∈ Kzg.groups (querySet s) := by
            refine ⟨_, ?_, List.mem_map_of_mem (a := s.gamma) ?_⟩
            · rw [List.mem_dedup, List.mem_map]
              exact ⟨("h_2", s.gamma), by simp [querySet], rfl⟩
            · rw [List.mem_dedup, List.mem_map]
              exact ⟨("h_2", s.gamma), by simp [querySet], rfl⟩
          obtain ⟨ls, hls, hg⟩ := hg
          obtain ⟨i, hi, hgi⟩ := List.mem_iff_getElem.mp hg
          have hz : ((s.gamma, ls), proof.opening_proofs[i]'(by omega))
              ∈ (Kzg.groups (querySet s)).zip proof.opening_proofs := by
            rw [List.mem_iff_getElem]
            exact ⟨i, by rw [List.length_zip]; omega, by rw [List.getElem_zip, hgi]⟩
          obtain ⟨b, hb⟩ := forall₂_mem (Kzg.mapM_ok.mp hbs) hz
          unfold Kzg.checkGroup at hb
          obtain ⟨sel, hsel, -⟩ := Kzg.bind_ok hb
          obtain ⟨cv, hcv⟩ := forall₂_mem (Kzg.mapM_ok.mp hsel) hls
          obtain ⟨c, hc', -⟩ := Kzg.bind_ok hcv
          unfold Kzg.orMissing at hc'
          split at hc'
          · rename_i a ha
            have hm := Kzg.lookupLast_mem ha
            have hl : a.label = "h_2" := by
              unfold Kzg.lookupLast at ha
              simpa using List.find?_some ha
            unfold labelCommitments at hm
            obtain ⟨t, ht, rfl⟩ := List.mem_map.mp hm
            have ht1 := (List.of_mem_zip (a := t.1) (b := t.2) ht).1
            have := zip_label (n := 20) (by decide +kernel) ht1 hl
            simp only [List.length_append] at this
            omega
          · cases hc'
        · rw [← hlen]
          unfold Kzg.groups
          rw [List.length_map]
          by_cases hbg : s.beta = s.gamma
          · rw [if_pos hbg]
            have : (querySet s).map (·.2) = List.replicate 21 s.gamma := by simp [querySet, hbg, List.replicate]
            rw [this]
            simp [List.replicate_dedup]
          · rw [if_neg hbg]
            have hgb : s.gamma ≠ s.beta := fun h => hbg h.symm
            have : ((querySet s).map (·.2)).dedup = [s.gamma, s.beta] := by
              simp [querySet, List.dedup_cons_of_mem, List.dedup_cons_of_notMem, hbg, hgb]
            rw [this]
            rfl
    · cases h
  · cases h

/-- The proof of the example for `C83_partial` is accepted, so it has this shape. -/
theorem accepted97 (τ g γ h : Ex97.F97) (e : Ex97.F97 →ₗ[Ex97.F97] Ex97.F97 →ₗ[Ex97.F97] Ex97.F97) :
    ∃ ipk ivk proof, index false Ex97.mk97 (Kzg.setup 13 τ g γ h) cs97 = .ok (ipk, ivk) ∧
      verify Ex97.mk97 rng97 e ivk proof [6] = .ok true := by
  obtain ⟨ipk, ivk, proof, hi, hp⟩ := prove97 false τ g γ h
  refine ⟨ipk, ivk, proof, hi, C83_partial Ex97.mk97_ok rng97 e hi rfl rfl cs97_valid rfl ⟨1, rfl⟩ ?_ ?_ ?_ hp⟩
  · change (1 : Ex97.F97) ≠ 0
    decide
  · change (1 : Ex97.F97) ≠ 0
    decide
  · intro l
    constructor <;> · change (X : Ex97.F97[X]).natDegree ≤ 1; rw [natDegree_X]

example (e : Ex97.F97 →ₗ[Ex97.F97] Ex97.F97 →ₗ[Ex97.F97] Ex97.F97) : ∃ proof : Proof Ex97.F97 Ex97.F97,
    21 ≤ proof.evaluations.length := by
  obtain ⟨_, _, proof, -, hv⟩ := accepted97 3 1 2 1 e
  exact ⟨proof, (C84_partial hv).2.1⟩

/-- Anything may be appended to the list of commitment vectors: it is neither absorbed nor read. -/
theorem C84_malleable [DecidableEq GT] (mk : Nat → Option (Domain F)) (rng : FsRng F G1 G2)
    (e : G1 →ₗ[F] G2 →ₗ[F] GT) (ivk : IndexVerifierKey F G1 G2) (c1 c2 c3 : List (Kzg.Commitment G1))
    (extra : List (List (Kzg.Commitment G1))) (evals : List F) (op : List (Kzg.Proof F G1)) (pi : List F) :
    verify mk rng e ivk ⟨c1 :: c2 :: c3 :: extra, evals, op⟩ pi
      = verify mk rng e ivk ⟨[c1, c2, c3], evals, op⟩ pi := rfl

/-- So the full statement is false. -/
theorem C84_violated (e : Ex97.F97 →ₗ[Ex97.F97] Ex97.F97 →ₗ[Ex97.F97] Ex97.F97) :
    ¬ C84_statement Ex97.F97 Ex97.F97 Ex97.F97 Ex97.F97 Ex97.mk97 rng97 e := by
  intro hst
  obtain ⟨ipk, ivk, ⟨cs, ev, op⟩, hi, hv⟩ := accepted97 3 1 2 1 e
  obtain ⟨⟨c1, c2, c3, rest, s, hc, -⟩, -⟩ := C84_partial hv
  dsimp only at hc
  subst hc
  have hv' : verify Ex97.mk97 rng97 e ivk ⟨c1 :: c2 :: c3 :: [[]], ev, op⟩ [6] = .ok true := by
    rw [C84_malleable] at hv ⊢
    exact hv
  have := (hst 13 3 1 2 1 cs97 ipk ivk _ [6] hi hv').1
  simp at this

/-! ### C85 -/

theorem density_eq (m : Matrix F) : density m = m.flatten.length := by
  unfold density
  rw [List.length_flatten]

/-- Every column of the matrix belongs to a variable. -/
def Cols (n : Nat) (m : Matrix F) : Prop := ∀ row ∈ m, ∀ t ∈ row, t.2 < n

theorem composeEntries_exists {D H : Domain F} {p : Nat} (hs : Sub D H p) : ∀ {m : Matrix F} {i : Nat},
    Cols H.size m → i + m.length ≤ H.size → ∃ l, composeEntries H D i m = .ok l ∧ l.length = m.flatten.length := by
  intro m
  induction m with
  | nil => intro i _ _; exact ⟨[], rfl, rfl⟩
  | cons row m ih =>
    intro i hc hi
    rw [List.length_cons] at hi
    obtain ⟨l, hl, hll⟩ := ih (i := i + 1) (fun r hr => hc r (List.mem_cons_of_mem _ hr)) (by omega)
    obtain ⟨r, hr⟩ := mapM_exists (f := composeEntry H D i) (l := row) (by
      intro t ht
      obtain ⟨q, hq, hlt, -⟩ := reindex_spec hs (hc row List.mem_cons_self t ht)
      unfold composeEntry
      rw [hq]
      simp only [bind, Except.bind]
      rw [if_pos ⟨hlt, by omega⟩]
      exact ⟨_, rfl⟩)
    have hrl : r.length = row.length := (Kzg.mapM_ok.mp hr).length_eq.symm
    refine ⟨r ++ l, ?_, ?_⟩
    · unfold composeEntries
      rw [hr]
      simp only [bind, Except.bind]
      rw [hl]
    · rw [List.length_append, List.flatten_cons, List.length_append, hrl, hll]

theorem compose_exists {D H K : Domain F} {p : Nat} (hs : Sub D H p) {m : Matrix F} (hc : Cols H.size m)
    (hl : m.length ≤ H.size) (hk : m.flatten.length ≤ K.size) : ∃ q, compose D H K m = .ok q := by
  obtain ⟨l, h1, h2⟩ := composeEntries_exists hs (i := 0) hc (by omega)
  unfold compose padEntries
  rw [h1]
  simp only [bind, Except.bind]
  rw [if_neg (by omega)]
  exact ⟨_, rfl⟩

theorem cols_sort {n : Nat} {m : Matrix F} (h : Cols n m) : Cols n (sortColumns m) := by
  intro row hr t ht
  unfold sortColumns at hr
  obtain ⟨r, hr', rfl⟩ := List.mem_map.mp hr
  split at ht
  · exact h r hr' t ht
  · exact h r hr' t (List.mem_mergeSort.mp ht)

theorem cols_balance {checked : Bool} {n : Nat} : ∀ {a b a' b' : Matrix F} {f : Bool} {x y : Nat},
    balanceLoop checked f x y a b = .ok (a', b') → Cols n a → Cols n b →
    Cols n a' ∧ Cols n b' ∧ a'.length = a.length ∧ b'.length = b.length := by
  intro a
  induction a with
  | nil =>
    intro b a' b' f x y h ha hb
    cases f <;> (unfold balanceLoop at h; injection h with h; injection h with h1 h2; subst h1 h2; exact ⟨ha, hb, rfl, rfl⟩)
  | cons ra a ih =>
    intro b a' b' f x y h ha hb
    cases b with
    | nil =>
      cases f <;> (unfold balanceLoop at h; injection h with h; injection h with h1 h2; subst h1 h2; exact ⟨ha, hb, rfl, rfl⟩)
    | cons rb b =>
      have ca : Cols n a := fun r hr => ha r (List.mem_cons_of_mem _ hr)
      have cb : Cols n b := fun r hr => hb r (List.mem_cons_of_mem _ hr)
      have put : ∀ {r : List (F × Nat)} {m : Matrix F}, (∀ t ∈ r, t.2 < n) → Cols n m → Cols n (r :: m) := by
        intro r m h1 h2 row hrow
        rcases List.mem_cons.mp hrow with rfl | hrow
        exacts [h1, h2 row hrow]
      cases f with
      | true =>
        unfold balanceLoop at h
        obtain ⟨_, -, h⟩ := Kzg.bind_ok h
        obtain ⟨_, -, h⟩ := Kzg.bind_ok h
        obtain ⟨_, -, h⟩ := Kzg.bind_ok h
        obtain ⟨_, -, h⟩ := Kzg.bind_ok h
        obtain ⟨⟨r1, r2⟩, hr, h⟩ := Kzg.bind_ok h
        injection h with h
        injection h with h1 h2
        subst h1 h2
        obtain ⟨i1, i2, i3, i4⟩ := ih hr ca cb
        exact ⟨put (hb rb List.mem_cons_self) i1, put (ha ra List.mem_cons_self) i2, by simpa using i3, by simpa using i4⟩
      | false =>
        unfold balanceLoop at h
        obtain ⟨⟨r1, r2⟩, hr, h⟩ := Kzg.bind_ok h
        injection h with h
        injection h with h1 h2
        subst h1 h2
        obtain ⟨i1, i2, i3, i4⟩ := ih hr ca cb
        exact ⟨put (ha ra List.mem_cons_self) i1, put (hb rb List.mem_cons_self) i2, by simpa using i3, by simpa using i4⟩

/-- The number of the variable is one that was allocated. -/
def Allocated (cs : CS F) : Index → Prop
  | .input i => i < cs.inputs.length
  | .aux i => i < cs.aux.length

theorem cols_reindex {cs : CS F} {f : R1C F → LC F} {n pad : Nat} (hn : cs.inputs.length + cs.aux.length ≤ n)
    (h : ∀ k ∈ cs.constraints, ∀ t ∈ f k, Allocated cs t.1) :
    Cols n (reindex cs.inputs.length (cs.constraints.map (fun k => makeRow (f k)) ++ List.replicate pad [])) := by
  intro row hr t ht
  unfold reindex at hr
  obtain ⟨r, hr', rfl⟩ := List.mem_map.mp hr
  obtain ⟨u, hu, rfl⟩ := List.mem_map.mp ht
  rcases List.mem_append.mp hr' with hr' | hr'
  · obtain ⟨k, hk, rfl⟩ := List.mem_map.mp hr'
    unfold makeRow at hu
    obtain ⟨v, hv, rfl⟩ := List.mem_map.mp hu
    have := h k hk v hv
    dsimp only
    cases hvi : v.1 with
    | input i => rw [hvi] at this; unfold Allocated at this; unfold column; dsimp only at this ⊢; omega
    | aux i => rw [hvi] at this; unfold Allocated at this; unfold column; dsimp only at this ⊢; omega
  · rw [(List.mem_replicate.mp hr').2] at hu
    cases hu

/-- The matrices of a circuit can be turned into polynomials, whatever the circuit is, if its constraints use
allocated variables only and the domains exist: for the inputs, for the larger of the numbers of variables
and of constraints, for the entries of the fullest of the three matrices, and the one for products.  (That
the matrices are there at all is the subject of C37.) -/
theorem C85 {checked : Bool} {mk : Nat → Option (Domain F)} (hmk : MkOk mk) {cs : CS F}
    (hvar : ∀ k ∈ cs.constraints, (∀ t ∈ k.a, Allocated cs t.1) ∧ (∀ t ∈ k.b, Allocated cs t.1) ∧
      ∀ t ∈ k.c, Allocated cs t.1)
    {A B C : Matrix F} (hp : (Ics.of cs).makeSquare.process checked = .ok (A, B, C)) {D H K E : Domain F}
    (hD : mk cs.inputs.length = some D)
    (hH : mk (max (cs.inputs.length + cs.aux.length) cs.constraints.length) = some H)
    (hK : mk (max (max A.flatten.length B.flatten.length) C.flatten.length) = some K)
    (hE : mk (3 * K.size - 3) = some E) :
    ∃ d, ahpIndex checked mk cs = .ok d ∧ d.a = A ∧ d.b = B ∧ d.c = C ∧
      d.info = ⟨max (cs.inputs.length + cs.aux.length) cs.constraints.length,
        max (cs.inputs.length + cs.aux.length) cs.constraints.length,
        max (max A.flatten.length B.flatten.length) C.flatten.length⟩ := by
  set n := max (cs.inputs.length + cs.aux.length) cs.constraints.length with hn
  have hni : (Ics.of cs).makeSquare.numInputs = cs.inputs.length := by
    unfold Ics.makeSquare Ics.of
    dsimp only
    split <;> rfl
  have hnv : (Ics.of cs).makeSquare.numInputs + (Ics.of cs).makeSquare.numWitness = n := by
    unfold Ics.makeSquare Ics.of
    dsimp only
    rw [List.length_map]
    split
    · dsimp only; omega
    · dsimp only; omega
  obtain ⟨l1, l2, l3⟩ := makeSquare_length cs
  rw [hnv] at l3
  have hrows : ∀ (f : R1C F → LC F), (∀ k ∈ cs.constraints, ∀ t ∈ f k, Allocated cs t.1) → ∀ pad,
      Cols n (reindex cs.inputs.length (cs.constraints.map (fun k => makeRow (f k)) ++ List.replicate pad [])) :=
    fun f hf pad => cols_reindex (by omega) hf
  have hsq : ∃ pad, (Ics.of cs).makeSquare.a = cs.constraints.map (fun k => makeRow k.a) ++ List.replicate pad [] ∧
      (Ics.of cs).makeSquare.b = cs.constraints.map (fun k => makeRow k.b) ++ List.replicate pad [] ∧
      (Ics.of cs).makeSquare.c = cs.constraints.map (fun k => makeRow k.c) ++ List.replicate pad [] := by
    unfold Ics.makeSquare
    dsimp only
    split
    · exact ⟨0, by simp [Ics.of], by simp [Ics.of], by simp [Ics.of]⟩
    · exact ⟨_, rfl, rfl, rfl⟩
  obtain ⟨pad, sa, sb, sc⟩ := hsq
  have hp0 := hp
  unfold Ics.process at hp
  obtain ⟨⟨a', b'⟩, hb, hp⟩ := Kzg.bind_ok hp
  injection hp with hp
  injection hp with e1 hp
  injection hp with e2 e3
  unfold balance at hb
  obtain ⟨i1, i2, i3, i4⟩ := cols_balance (n := n) hb (by
    rw [hni, sa]; exact hrows R1C.a (fun k hk => (hvar k hk).1) pad) (by
    rw [hni, sb]; exact hrows R1C.b (fun k hk => (hvar k hk).2.1) pad)
  have i5 : Cols n (reindex (Ics.of cs).makeSquare.numInputs (Ics.of cs).makeSquare.c) := by
    rw [hni, sc]; exact hrows R1C.c (fun k hk => (hvar k hk).2.2) pad
  have hle : n ≤ H.size := hmk.ge hH
  have grow : ∀ {m : Matrix F}, Cols n m → Cols H.size m := fun h row hr t ht => (h row hr t ht).trans_le hle
  have cA : Cols H.size A := e1 ▸ grow (cols_sort i1)
  have cB : Cols H.size B := e2 ▸ grow (cols_sort i2)
  have cC : Cols H.size C := e3 ▸ grow (cols_sort i5)
  have lA : A.length ≤ H.size := by
    rw [← e1]
    unfold sortColumns
    rw [List.length_map, i3]
    unfold reindex
    rw [List.length_map]
    omega
  have lB : B.length ≤ H.size := by
    rw [← e2]
    unfold sortColumns
    rw [List.length_map, i4]
    unfold reindex
    rw [List.length_map]
    omega
  have lC : C.length ≤ H.size := by
    rw [← e3]
    unfold sortColumns reindex
    rw [List.length_map, List.length_map]
    omega
  have hKs := hmk.ge hK
  obtain ⟨p, hs⟩ := MkOk.isSub hmk hD hH (by omega)
  obtain ⟨pa, ha⟩ := compose_exists (K := K) hs cA lA (by omega)
  obtain ⟨pb, hb'⟩ := compose_exists (K := K) hs cB lB (by omega)
  obtain ⟨pc, hc⟩ := compose_exists (K := K) hs cC lC (by omega)
  have hnz : numNonZeros (A, B, C) = max (max A.flatten.length B.flatten.length) C.flatten.length := by
    unfold numNonZeros
    simp only [density_eq]
  have eX : domain mk (Ics.of cs).makeSquare.numInputs = .ok D := by rw [hni]; unfold domain; rw [hD]
  have eH : domain mk ((Ics.of cs).makeSquare.numInputs + (Ics.of cs).makeSquare.numWitness) = .ok H := by
    rw [hnv]; unfold domain; rw [hH]
  have eK : domain mk (numNonZeros (A, B, C)) = .ok K := by rw [hnz]; unfold domain; rw [hK]
  have eE : domain mk (3 * K.size - 3) = .ok E := by unfold domain; rw [hE]
  have hK1 := (hmk.valid hK).pos
  refine ⟨⟨⟨n, n, max (max A.flatten.length B.flatten.length) C.flatten.length⟩, A, B, C, pa, pb, pc⟩, ?_, rfl, rfl,
    rfl, rfl⟩
  unfold ahpIndex
  dsimp only
  rw [hp0]
  simp only [liftSyn, bind, Except.bind]
  rw [eX, eH, eK]
  dsimp only
  rw [if_neg (by omega), eE]
  dsimp only
  rw [ha, hb', hc]
  dsimp only
  rw [l3, hnv, hnz]

/-- The keys exist exactly if no index polynomial is constant, for a reference string that is long enough;
otherwise the indexer says that the circuit is too large for it. -/
theorem C85_keys {checked : Bool} {mk : Nat → Option (Domain F)} (hmk : MkOk mk) {cs : CS F} {d : IndexData F}
    (hd : ahpIndex checked mk cs = .ok d) (N : Nat) (τ : F) (g γ : G1) (h : G2) :
    ∃ H K, mk d.info.num_constraints = some H ∧ mk d.info.num_non_zeros = some K ∧
    (N < max (3 * H.size + 1) (3 * K.size - 3) →
      index checked mk (Kzg.setup N τ g γ h) cs = .error .indexTooLarge) ∧
    (max (3 * H.size + 1) (3 * K.size - 3) ≤ N →
      ((∃ ipk ivk, index checked mk (Kzg.setup N τ g γ h) cs = .ok (ipk, ivk)) ↔
        ∀ m ∈ [d.a_star, d.b_star, d.c_star], 1 ≤ m.row.natDegree ∧ 1 ≤ m.col.natDegree ∧ 1 ≤ m.val.natDegree ∧
          1 ≤ m.row_col.natDegree)) := by
  obtain ⟨hsq, H, K, hH, hK, ga, gb, gc⟩ := ahpIndex_ok hmk hd
  refine ⟨H, K, hH, hK, ?_, ?_⟩
  all_goals
    have hdeg : maxDegree mk d.info = .ok (max (3 * H.size + 1) (3 * K.size - 3)) := by
      unfold maxDegree domain
      rw [← hsq, max_self, hH, hK]
      rfl
    have hlen : (Kzg.setup N τ g γ h).powers_of_g.length - 1 = N := by simp [Kzg.setup]
    intro hN
  · unfold index
    rw [hd]
    simp only [bind, Except.bind, hdeg]
    rw [hlen, if_pos hN]
  · set deg := max (3 * H.size + 1) (3 * K.size - 3) with hdd
    have ht := Kzg.setup_trim_spec (N := N) (s := deg) hN τ g γ h
    have hKd : ∀ {p : F[X]}, p.degree < (K.size : WithBot ℕ) → p.natDegree ≤ deg := by
      intro p hp
      by_cases h0 : p = 0
      · rw [h0, natDegree_zero]; omega
      · have := (natDegree_lt_iff_degree_lt h0).mpr hp
        have := (hmk.valid hK).pos
        omega
    constructor
    · rintro ⟨ipk, ivk, hi⟩
      unfold index at hi
      rw [hd] at hi
      simp only [bind, Except.bind, hdeg] at hi
      rw [hlen, if_neg (by omega), ht] at hi
      simp only [liftPc] at hi
      cases hc : Kzg.pcCommit (⟨Kzg.pows τ g (deg + 1), Kzg.pows τ γ (deg + 1), deg⟩ : Kzg.CommitterKey G1)
          (d.polys.map fun p => (p, 0, 0)) with
      | error err => rw [hc] at hi; cases hi
      | ok crs =>
        have key : ∀ p ∈ d.polys, 1 ≤ p.polynomial.natDegree := fun p hp =>
          commitAll_deg (τ := τ) (g := g) (γ := γ) (deg := deg) (c := ⟨0, 0, 0, 0, fun _ => (0, 0)⟩) (p := p) (by simp) hp
            (crs := crs) (by unfold commitAll; dsimp only; rw [hc]; rfl)
        intro m hm
        simp only [List.mem_cons, List.not_mem_nil, or_false] at hm
        rcases hm with rfl | rfl | rfl
        · exact ⟨key ⟨"a_row", _, none, none⟩ (by simp [IndexData.polys]),
            key ⟨"a_col", _, none, none⟩ (by simp [IndexData.polys]),
            key ⟨"a_val", _, none, none⟩ (by simp [IndexData.polys]),
            key ⟨"a_row_col", _, none, none⟩ (by simp [IndexData.polys])⟩
        · exact ⟨key ⟨"b_row", _, none, none⟩ (by simp [IndexData.polys]),
            key ⟨"b_col", _, none, none⟩ (by simp [IndexData.polys]),
            key ⟨"b_val", _, none, none⟩ (by simp [IndexData.polys]),
            key ⟨"b_row_col", _, none, none⟩ (by simp [IndexData.polys])⟩
        · exact ⟨key ⟨"c_row", _, none, none⟩ (by simp [IndexData.polys]),
            key ⟨"c_col", _, none, none⟩ (by simp [IndexData.polys]),
            key ⟨"c_val", _, none, none⟩ (by simp [IndexData.polys]),
            key ⟨"c_row_col", _, none, none⟩ (by simp [IndexData.polys])⟩
    · intro hne
      obtain ⟨crs, hc⟩ := Kzg.C38_list_success ht (d.polys.map fun p => (p, 0, 0)) (by
        intro p hp
        obtain ⟨q, hq, rfl⟩ := List.mem_map.mp hp
        have : (1 ≤ q.polynomial.natDegree ∧ q.polynomial.natDegree ≤ deg) ∧ q.degree_bound = none ∧
            q.hiding_bound = none := by
          obtain ⟨a1, a2, a3, a4⟩ := hne d.a_star (by simp)
          obtain ⟨b1, b2, b3, b4⟩ := hne d.b_star (by simp)
          obtain ⟨c1, c2, c3, c4⟩ := hne d.c_star (by simp)
          simp only [IndexData.polys, List.mem_cons, List.not_mem_nil, or_false] at hq
          rcases hq with rfl | rfl | rfl | rfl | rfl | rfl | rfl | rfl | rfl | rfl | rfl | rfl
          · exact ⟨⟨a1, hKd ga.row⟩, rfl, rfl⟩
          · exact ⟨⟨a2, hKd ga.col⟩, rfl, rfl⟩
          · exact ⟨⟨a3, hKd ga.val⟩, rfl, rfl⟩
          · exact ⟨⟨a4, hKd ga.row_col⟩, rfl, rfl⟩
          · exact ⟨⟨b1, hKd gb.row⟩, rfl, rfl⟩
          · exact ⟨⟨b2, hKd gb.col⟩, rfl, rfl⟩
          · exact ⟨⟨b3, hKd gb.val⟩, rfl, rfl⟩
          · exact ⟨⟨b4, hKd gb.row_col⟩, rfl, rfl⟩
          · exact ⟨⟨c1, hKd gc.row⟩, rfl, rfl⟩
          · exact ⟨⟨c2, hKd gc.col⟩, rfl, rfl⟩
          · exact ⟨⟨c3, hKd gc.val⟩, rfl, rfl⟩
          · exact ⟨⟨c4, hKd gc.row_col⟩, rfl, rfl⟩
        obtain ⟨⟨h1, h2⟩, h3, h4⟩ := this
        refine ⟨h1, h2, ?_, ?_⟩
        · intro d hd; dsimp only at hd; rw [h3] at hd; cases hd
        · intro d hd; dsimp only at hd; rw [h4] at hd; cases hd)
      unfold index
      rw [hd]
      simp only [bind, Except.bind, hdeg]
      rw [hlen, if_neg (by omega), ht]
      simp only [liftPc]
      rw [hc]
      exact ⟨_, _, rfl⟩

/-- The circuit of the example over the field with 97 elements: too large below degree 13. -/
example (τ g γ h : Ex97.F97) :
    index true Ex97.mk97 (Kzg.setup 12 τ g γ h) cs97 = .error .indexTooLarge := by
  obtain ⟨H, K, hH, hK, h1, -⟩ := C85_keys Ex97.mk97_ok (ahp97 true) 12 τ g γ h
  have e1 : H4 = H := Option.some.inj hH
  have e2 : H4 = K := Option.some.inj hK
  subst e1 e2
  exact h1 (by decide)

/-- The hypotheses of `C85` for this circuit. -/
example : ∃ d, ahpIndex true Ex97.mk97 cs97 = .ok d ∧ d.info = ⟨4, 4, 3⟩ := by
  obtain ⟨d, h1, -, -, -, h5⟩ := C85 (checked := true) Ex97.mk97_ok (cs := cs97)
    (A := [[(1, 2)], [(1, 0)], [], []]) (B := [[(1, 3)], [(1, 2), (1, 3)], [], []])
    (C := [[(1, 1)], [(96, 0), (1, 1)], [], []]) (D := X2) (H := H4) (K := H4) (E := ⟨16, 8, 5⟩)
    (by
      intro k hk
      simp only [cs97, List.mem_cons, List.not_mem_nil, or_false] at hk
      rcases hk with rfl | rfl <;> simp [Allocated, cs97]) rfl rfl rfl rfl rfl
  exact ⟨d, h1, h5⟩

end Zkp.Marlin
