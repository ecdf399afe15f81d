/- C117: Marlin's challenges are bound to the verifying key, the public inputs and all messages of the proof. -/
import Verif.Model.MarlinBytes
import Verif.Props.Challenge

set_option linter.unusedSimpArgs false

namespace Zkp.MarlinBytes

variable {F G1 G2 : Type}

/-- Assumed of the external encodings: all values of a type have encodings of one length, at least one byte, and different
values different ones. -/
structure Enc.Ok (e : Enc F G1 G2) (nF n1 n2 : Nat) : Prop where
  posF : 0 < nF
  fr_len : ∀ x, (e.fr x).length = nF
  g1_len : ∀ x, (e.g1 x).length = n1
  g2_len : ∀ x, (e.g2 x).length = n2
  fr_inj : Function.Injective e.fr
  g1_inj : Function.Injective e.g1
  g2_inj : Function.Injective e.g2

theorem leBytes_length (n v : Nat) : (leBytes n v).length = n := by
  induction n generalizing v with
  | zero => rfl
  | succ n ih => simp [leBytes, ih]

theorem leBytes_inj {n v w : Nat} (hv : v < 256 ^ n) (hw : w < 256 ^ n) (h : leBytes n v = leBytes n w) : v = w := by
  induction n generalizing v w with
  | zero => simp at hv hw; omega
  | succ n ih =>
    rw [leBytes, leBytes] at h
    obtain ⟨h1, h2⟩ := List.cons.inj h
    rw [pow_succ] at hv hw
    have h3 := ih (Nat.div_lt_of_lt_mul (by rwa [Nat.mul_comm])) (Nat.div_lt_of_lt_mul (by rwa [Nat.mul_comm])) h2
    have h4 := congrArg UInt8.toNat h1
    rw [UInt8.toNat_ofNat', UInt8.toNat_ofNat', Nat.mod_mod, Nat.mod_mod] at h4
    omega

theorem flatMap_inj {α : Type} {f : α → List UInt8} {n : Nat} (hn : 0 < n) (hl : ∀ x, (f x).length = n)
    (hf : Function.Injective f) {xs ys : List α} (h : xs.flatMap f = ys.flatMap f) : xs = ys := by
  induction xs generalizing ys with
  | nil =>
    cases ys with
    | nil => rfl
    | cons y ys =>
      have := congrArg List.length h
      simp [hl] at this
      omega
  | cons x xs ih =>
    cases ys with
    | nil =>
      have := congrArg List.length h
      simp [hl] at this
      omega
    | cons y ys =>
      rw [List.flatMap_cons, List.flatMap_cons] at h
      obtain ⟨h1, h2⟩ := List.append_inj h (by rw [hl, hl])
      rw [hf h1, ih h2]

theorem flatMap_length {α : Type} {f : α → List UInt8} {n : Nat} (hl : ∀ x, (f x).length = n) (xs : List α) :
    (xs.flatMap f).length = xs.length * n := by
  induction xs with
  | nil => simp
  | cons x xs ih => rw [List.flatMap_cons, List.length_append, ih, hl, List.length_cons]; ring

theorem Commitment.write_length {e : Enc F G1 G2} {nF n1 n2 : Nat} (he : e.Ok nF n1 n2) (c : Commitment G1) :
    (c.write e).length = n1 + 1 + n1 := by
  simp [Commitment.write, he.g1_len]
  omega

theorem Commitment.write_inj {e : Enc F G1 G2} {nF n1 n2 : Nat} (he : e.Ok nF n1 n2) :
    Function.Injective (Commitment.write e) := by
  rintro ⟨a, s⟩ ⟨b, t⟩ h
  simp only [Commitment.write] at h
  obtain ⟨h1, h2⟩ := List.append_inj h (by simp [he.g1_len])
  obtain ⟨h3, h4⟩ := List.append_inj h1 (by simp [he.g1_len])
  have ha := he.g1_inj h3
  have hs := he.g1_inj h2
  subst ha
  cases s <;> cases t <;> simp_all

theorem IndexInfo.write_inj {i j : IndexInfo}
    (hi : i.num_constraints < 2 ^ 64 ∧ i.num_variables < 2 ^ 64 ∧ i.num_non_zeros < 2 ^ 64)
    (hj : j.num_constraints < 2 ^ 64 ∧ j.num_variables < 2 ^ 64 ∧ j.num_non_zeros < 2 ^ 64)
    (h : i.write = j.write) : i = j := by
  obtain ⟨h1, h2⟩ := List.append_inj h (by simp [leBytes_length])
  obtain ⟨h3, h4⟩ := List.append_inj h1 (by simp [leBytes_length])
  have e1 := leBytes_inj (n := 8) (by omega) (by omega) h2
  have e2 := leBytes_inj (n := 8) (by omega) (by omega) h3
  have e3 := leBytes_inj (n := 8) (by omega) (by omega) h4
  cases i
  cases j
  simp_all

theorem VerifierKey.write_length {e : Enc F G1 G2} {nF n1 n2 : Nat} (he : e.Ok nF n1 n2) (k : VerifierKey G1 G2) :
    (k.write e).length = n1 + n1 + n2 + n2 + 8 := by
  simp [VerifierKey.write, he.g1_len, he.g2_len, leBytes_length]
  omega

theorem VerifierKey.write_inj {e : Enc F G1 G2} {nF n1 n2 : Nat} (he : e.Ok nF n1 n2) {k l : VerifierKey G1 G2}
    (hk : k.supported_degree < 2 ^ 64) (hl : l.supported_degree < 2 ^ 64) (h : k.write e = l.write e) : k = l := by
  obtain ⟨h, h5⟩ := List.append_inj h (by simp [he.g1_len, he.g2_len])
  obtain ⟨h, h4⟩ := List.append_inj h (by simp [he.g1_len, he.g2_len])
  obtain ⟨h, h3⟩ := List.append_inj h (by simp [he.g1_len, he.g2_len])
  obtain ⟨h1, h2⟩ := List.append_inj h (by simp [he.g1_len, he.g2_len])
  have e5 := leBytes_inj (n := 8) (by omega) (by omega) h5
  have e4 := he.g2_inj h4
  have e3 := he.g2_inj h3
  have e2 := he.g1_inj h2
  have e1 := he.g1_inj h1
  cases k
  cases l
  simp_all

/-- The numbers in a key fit the integers they are converted to. -/
structure IndexVerifierKey.Fits (k : IndexVerifierKey G1 G2) : Prop where
  constraints : k.index_info.num_constraints < 2 ^ 64
  vars : k.index_info.num_variables < 2 ^ 64
  nonZeros : k.index_info.num_non_zeros < 2 ^ 64
  comms : k.index_comms.length < 2 ^ 32
  degree : k.verifier_key.supported_degree < 2 ^ 64

/-- C117, the seed: it determines the verifying key and the public inputs, also their number. -/
theorem C117_seed {e : Enc F G1 G2} {nF n1 n2 : Nat} (he : e.Ok nF n1 n2) {k l : IndexVerifierKey G1 G2} (hk : k.Fits)
    (hl : l.Fits) {xs ys : List F} (h : seedBytes e k xs = seedBytes e l ys) : k = l ∧ xs = ys := by
  have hlen : k.index_comms.length = l.index_comms.length := by
    have h' := h
    simp only [seedBytes, IndexVerifierKey.write, List.append_assoc] at h'
    obtain ⟨-, h'⟩ := List.append_inj h' (by simp [IndexInfo.write, leBytes_length])
    obtain ⟨h', -⟩ := List.append_inj h' (by simp [leBytes_length])
    exact leBytes_inj (n := 4) (by have := hk.comms; omega) (by have := hl.comms; omega) h'
  have hc : ∀ cs : List (Commitment G1), (writeComms e cs).length = cs.length * (n1 + 1 + n1) :=
    flatMap_length (Commitment.write_length he)
  have hw : ∀ k : IndexVerifierKey G1 G2, (k.write e).length =
      8 + 8 + 8 + 4 + k.index_comms.length * (n1 + 1 + n1) + (n1 + n1 + n2 + n2 + 8) := by
    intro k
    simp [IndexVerifierKey.write, IndexInfo.write, leBytes_length, hc, VerifierKey.write_length he]
    omega
  obtain ⟨h1, h2⟩ := List.append_inj h (by rw [hw, hw, hlen])
  refine ⟨?_, flatMap_inj he.posF he.fr_len he.fr_inj h2⟩
  obtain ⟨h1, h3⟩ := List.append_inj h1 (by simp [IndexInfo.write, leBytes_length, hc, hlen])
  obtain ⟨h1, h4⟩ := List.append_inj h1 (by simp [IndexInfo.write, leBytes_length])
  obtain ⟨h1, -⟩ := List.append_inj h1 (by simp [IndexInfo.write, leBytes_length])
  have e1 := IndexInfo.write_inj ⟨hk.constraints, hk.vars, hk.nonZeros⟩ ⟨hl.constraints, hl.vars, hl.nonZeros⟩ h1
  have e2 := VerifierKey.write_inj he hk.degree hl.degree h3
  have e3 : k.index_comms = l.index_comms :=
    flatMap_inj (n := n1 + 1 + n1) (by omega) (Commitment.write_length he) (Commitment.write_inj he) h4
  cases k
  cases l
  simp_all

/-- C117, the messages: each determines the commitments, with their shifted parts, and the evaluations. -/
theorem C117_messages {e : Enc F G1 G2} {nF n1 n2 : Nat} (he : e.Ok nF n1 n2) :
    (∀ cs ds : List (Commitment G1), writeComms e cs = writeComms e ds → cs = ds) ∧
    ∀ xs ys : List F, xs.flatMap e.fr = ys.flatMap e.fr → xs = ys :=
  ⟨fun _ _ h => flatMap_inj (n := n1 + 1 + n1) (by omega) (Commitment.write_length he) (Commitment.write_inj he) h,
    fun _ _ h => flatMap_inj he.posF he.fr_len he.fr_inj h⟩

/-- C117.  Two runs of Marlin's verifier (or prover) that come to the same generator before the opening challenge is
drawn have the same key, public inputs, commitments and evaluations, or they show two strings with the same hash. -/
theorem C117 {e : Enc F G1 G2} {nF n1 n2 : Nat} (he : e.Ok nF n1 n2) {hash : List UInt8 → List UInt8} {len : Nat}
    (hh : ∀ x, (hash x).length = len) {k l : IndexVerifierKey G1 G2} (hk : k.Fits) (hl : l.Fits) {xs ys : List F}
    {c1 c2 c3 d1 d2 d3 : List (Commitment G1)} {es fs : List F}
    (h : finalSeed hash e k xs c1 c2 c3 es = finalSeed hash e l ys d1 d2 d3 fs) :
    (k = l ∧ xs = ys ∧ c1 = d1 ∧ c2 = d2 ∧ c3 = d3 ∧ es = fs) ∨ ∃ x y, x ≠ y ∧ hash x = hash y := by
  rcases Chal.C109_partial len hash hh (seedBytes e k xs) (seedBytes e l ys)
    [writeComms e c1, writeComms e c2, writeComms e c3, es.flatMap e.fr]
    [writeComms e d1, writeComms e d2, writeComms e d3, fs.flatMap e.fr] rfl h with ⟨h1, h2⟩ | ⟨x, -, y, -, hxy, he⟩
  · left
    simp only [List.cons.injEq, and_true] at h2
    obtain ⟨e1, e2⟩ := C117_seed he hk hl h1
    obtain ⟨m1, m2⟩ := C117_messages he
    exact ⟨e1, e2, m1 _ _ h2.1, m1 _ _ h2.2.1, m1 _ _ h2.2.2.1, m2 _ _ h2.2.2.2⟩
  · exact .inr ⟨x, y, hxy, he⟩

/-! ### Examples -/

/-- Encodings with one, two and three bytes. -/
def exEnc : Enc (Fin 256) (Fin 256 × Bool) (Fin 256) :=
  ⟨fun x => [UInt8.ofNat x], fun p => [UInt8.ofNat p.1, if p.2 then 1 else 0], fun x => [0, UInt8.ofNat x, 7], (0, true)⟩

theorem ofNat_inj {x y : Fin 256} (h : UInt8.ofNat x = UInt8.ofNat y) : x = y := by
  have := congrArg UInt8.toNat h
  rw [UInt8.toNat_ofNat', UInt8.toNat_ofNat'] at this
  omega

theorem exEnc_ok : exEnc.Ok 1 2 3 where
  posF := by decide
  fr_len _ := rfl
  g1_len _ := rfl
  g2_len _ := rfl
  fr_inj x y h := ofNat_inj (List.cons.inj h).1
  g1_inj := by
    rintro ⟨x, a⟩ ⟨y, b⟩ h
    obtain ⟨h1, h2⟩ := List.cons.inj h
    have h2 := (List.cons.inj h2).1
    obtain rfl : x = y := ofNat_inj h1
    cases a <;> cases b <;> simp_all
  g2_inj x y h := ofNat_inj (List.cons.inj (List.cons.inj h).2).1

/-- A key. -/
def exKey : IndexVerifierKey (Fin 256 × Bool) (Fin 256) :=
  ⟨⟨4, 300, 6⟩, [⟨(5, false), none⟩, ⟨(5, false), some (0, true)⟩], ⟨(1, false), (2, false), 3, 4, 70000⟩⟩

/-- Another key: the shifted part of a commitment is left out instead of zero. -/
def exKey' : IndexVerifierKey (Fin 256 × Bool) (Fin 256) :=
  ⟨⟨4, 300, 6⟩, [⟨(5, false), none⟩, ⟨(5, false), none⟩], ⟨(1, false), (2, false), 3, 4, 70000⟩⟩

theorem exKey_fits : exKey.Fits ∧ exKey'.Fits :=
  ⟨⟨by decide, by decide, by decide, by decide, by decide⟩, ⟨by decide, by decide, by decide, by decide, by decide⟩⟩

/-- The bytes for the first key and two inputs. -/
example : seedBytes exEnc exKey [9, 8] = [44, 1, 0, 0, 0, 0, 0, 0, 4, 0, 0, 0, 0, 0, 0, 0, 6, 0, 0, 0, 0, 0, 0, 0, 2, 0, 0, 0,
    5, 0, 0, 0, 1, 5, 0, 1, 0, 1, 1, 0, 2, 0, 0, 3, 7, 0, 4, 7, 112, 17, 1, 0, 0, 0, 0, 0, 9, 8] := by decide

example : seedBytes exEnc exKey [9] ≠ seedBytes exEnc exKey' [9] := fun h =>
  absurd (C117_seed exEnc_ok exKey_fits.1 exKey_fits.2 h).1 (by decide)

/-- A commitment and the same with a shifted part zero. -/
example : writeComms exEnc [⟨(5, false), none⟩] ≠ writeComms exEnc [⟨(5, false), some (0, true)⟩] := fun h =>
  absurd ((C117_messages exEnc_ok).1 _ _ h) (by decide)

/-- The premise of C117 is met by two runs with different keys, for a hash function with a collision (the first 32 bytes);
so the conclusion gives a collision. -/
example : finalSeed Chal.exHash exEnc exKey [9] [] [] [] (List.replicate 32 1) =
      finalSeed Chal.exHash exEnc exKey' [9] [] [] [] (List.replicate 32 1) ∧
    ∃ x y, x ≠ y ∧ Chal.exHash x = Chal.exHash y := by
  have h : finalSeed Chal.exHash exEnc exKey [9] [] [] [] (List.replicate 32 1) =
      finalSeed Chal.exHash exEnc exKey' [9] [] [] [] (List.replicate 32 1) := by decide +kernel
  exact ⟨h, (C117 exEnc_ok Chal.exHash_length exKey_fits.1 exKey_fits.2 h).resolve_left fun h => absurd h.1 (by decide)⟩

end Zkp.MarlinBytes
