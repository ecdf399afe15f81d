/- Properties C110-C112: the command-line tools `setup`, `zkp-prove` and `zkp-verify`. -/
import Verif.Model.CliTool
import Verif.Proof.CliCircuits

set_option linter.unusedSectionVars false
set_option linter.unusedSimpArgs false

namespace Zkp.Cli

/-! ### Decimal text -/

theorem parseDigits_toDecimal (n : Nat) (h : n < 2 ^ 64) (t : List Nat) :
    parseDigits (toDecimal n ++ t) 0 = parseDigits t n := by
  induction n using Nat.strong_induction_on generalizing t with
  | _ n ih =>
    rw [toDecimal]
    split
    · rename_i h10
      simp only [List.cons_append, List.nil_append, parseDigits]
      rw [if_pos (by omega)]
      congr 1
      omega
    · rename_i h10
      rw [List.append_assoc, ih (n / 10) (by omega) (by omega)]
      simp only [List.cons_append, List.nil_append, parseDigits]
      rw [if_pos (by omega)]
      congr 1
      omega

theorem toDecimal_head (n : Nat) : ∃ c cs, toDecimal n = c :: cs ∧ 48 ≤ c := by
  induction n using Nat.strong_induction_on with
  | _ n ih =>
    rw [toDecimal]
    split
    · exact ⟨48 + n, [], rfl, by omega⟩
    · obtain ⟨c, cs, h, h'⟩ := ih (n / 10) (by omega)
      exact ⟨c, cs ++ [48 + n % 10], by rw [h]; rfl, h'⟩

/-- Printing and parsing a `u64` are inverse. -/
theorem parseU64_toDecimal (n : Nat) (h : n < 2 ^ 64) : parseU64 (toDecimal n) = some n := by
  have := parseDigits_toDecimal n h []
  rw [List.append_nil] at this
  obtain ⟨c, cs, e, hc⟩ := toDecimal_head n
  rw [e] at this ⊢
  simp only [parseU64]
  rw [if_neg (by omega), this]
  rfl

theorem parseDigits_lt (l : List Nat) : ∀ (acc n : Nat), acc < 2 ^ 64 → parseDigits l acc = some n → n < 2 ^ 64 := by
  induction l with
  | nil => intro acc n h e; simp only [parseDigits, Option.some.injEq] at e; omega
  | cons c cs ih =>
    intro acc n _ e
    simp only [parseDigits] at e
    split at e
    · rename_i h; exact ih _ _ h.2.2 e
    · cases e

theorem parseU64_lt (l : List Nat) (n : Nat) (h : parseU64 l = some n) : n < 2 ^ 64 := by
  unfold parseU64 at h
  split at h
  · cases h
  · split at h
    · split at h
      · cases h
      · exact parseDigits_lt _ _ _ (by norm_num) h
    · exact parseDigits_lt _ _ _ (by norm_num) h

example : parseU64 (tx "18446744073709551615") = some (2 ^ 64 - 1) ∧ parseU64 (tx "18446744073709551616") = none ∧
    parseU64 (tx "+7") = some 7 ∧ parseU64 (tx "+") = none ∧ toDecimal 2026 = tx "2026" := by
  refine ⟨by decide +kernel, by decide +kernel, by decide +kernel, by decide +kernel, ?_⟩
  rw [toDecimal, toDecimal, toDecimal, toDecimal]
  decide +kernel

/-! ### C110: setup, prove, verify -/

section
variable {p : Nat} [Fact p.Prime] {R : Type}

/-- A circuit without values and the same circuit with values: both synthesize, to the same constraints and
sizes; the values satisfy the constraints, and the public ones are `pubs`. -/
def Fits (off on : Synth (ZMod p) Unit) (pubs : List (ZMod p)) : Prop :=
  ∃ c0 c, off (CS.new false) = .ok ((), c0) ∧ on (CS.new true) = .ok ((), c) ∧
    c.constraints = c0.constraints ∧ c.inputs.length = c0.inputs.length ∧ c.aux.length = c0.aux.length ∧
    c.inputs = 1 :: pubs ∧ c.Sat c.witness ∧
    (∀ k ∈ c.constraints, k.a.NoRepeat ∧ k.b.NoRepeat ∧ k.c.NoRepeat) ∧ Groth16.inRange c = true

/-- Completeness of the library functions of a scheme: if the circuits fit, a proof made with the keys of
the setup is accepted.  (The tools add nothing to the cryptography; what is to be shown is that they pass
the right things around.) -/
structure Complete (B : Schemes (ZMod p) R) (scheme : List Nat) : Prop where
  groth16 : scheme = tx "groth16" → ∀ off on pubs, Fits off on pubs → ∀ r r' vk pk pf,
    B.groth16Setup off r = some (vk, pk) → B.groth16Prove pk on r' = some pf → B.groth16Verify vk pf pubs = some true
  bulletproofs : scheme = tx "bulletproofs" → ∀ off on pubs, Fits off on pubs → ∀ r pf,
    B.bulletproofsProve on r = some pf → B.bulletproofsVerify pf pubs = some true
  snark : scheme = tx "spartan_snark" → ∀ off on pubs, Fits off on pubs → ∀ r r' srs pf,
    B.snarkSetup off r = some srs → B.snarkProve srs on r' = some pf → B.snarkVerify srs pf pubs = some true
  nizk : scheme = tx "spartan_nizk" → ∀ off on pubs, Fits off on pubs → ∀ r r' srs pf,
    B.nizkSetup off r = some srs → B.nizkProve srs on r' = some pf → B.nizkVerify srs pf pubs = some true

/-- The arguments make a true statement: for the product circuit, numbers with `x · (y + 2) = z` in the
field. -/
def Honest (p : Nat) (circuit : List Nat) (rest : List (List Nat)) : Prop :=
  circuit = tx "mini" → ∀ a b c x y z, rest[0]? = some a → rest[1]? = some b → rest[2]? = some c →
    parseU64 a = some x → parseU64 b = some y → parseU64 c = some z → (x : ZMod p) * (y + 2) = z

theorem inRange_of_tidy {F : Type} [Field F] {c : CS F}
    (h : ∀ k ∈ c.constraints, R1C.Tidy c.inputs.length c.aux.length k) : Groth16.inRange c = true := by
  simp only [Groth16.inRange, List.all_eq_true]
  intro k hk t ht
  have := (h k hk).2 t ht
  revert this
  cases t.1 <;> simp

theorem mini_fits (n : Nat) (k : List (ZMod p)) (x y z : ZMod p) (h : x * (y + 2) = z) :
    Fits (powerOff n k .mini) (do let _ ← mini (some x) (some y) (some z) 10) [z] := by
  obtain ⟨r1, r2, c1, c2, h1, h2, t, hi⟩ := mini_twin x y z 10
  obtain ⟨vx, vy, cs', h3, hs, -, -⟩ := C73_complete x y 10
  rw [h] at h3
  rw [h1, Except.ok.injEq, Prod.mk.injEq] at h3
  obtain ⟨-, rfl⟩ := h3
  refine ⟨c2, c1, ?_, ?_, t.cons, t.inputs, t.aux, hi, hs, fun k hk => (t.tidy k hk).1, inRange_of_tidy t.tidy⟩
  · simp only [powerOff, bind, StateT.bind, Except.bind, h2, pure, StateT.pure, Except.pure]
  · simp only [bind, StateT.bind, Except.bind, h1, pure, StateT.pure, Except.pure]

theorem hash_fits (n : Nat) (hn : 0 < n) (k : List (ZMod p)) (b : List UInt8) (h : ZMod p)
    (hh : Mimc.hash n b k = some h) :
    Fits (powerOff n k .hash) (do let _ ← hashCircuit n k (some b)) [h] := by
  have hb : b ≠ [] := by
    rintro rfl
    have e : bytesToField p n [] = [] := by
      unfold bytesToField chunks
      rw [dif_pos (Or.inr rfl)]
      rfl
    simp [Mimc.hash, Mimc.hashBytes, Mimc.hashElems, e] at hh
  obtain ⟨xl, xr, h', hh'⟩ := hashBytes_some p n hn k b hb
  have he : h' = h := by simpa [Mimc.hash, hh'] using hh
  subst he
  obtain ⟨r1, r2, c1, c2, h1, h2, t, hi⟩ := hash_twin n k b xl xr h' hh'
  obtain ⟨cs', i, y, h3, -, hs, -⟩ := C69_partial p n hn k b hb
  rw [h1, Except.ok.injEq, Prod.mk.injEq] at h3
  obtain ⟨-, rfl⟩ := h3
  refine ⟨c2, c1, ?_, ?_, t.cons, t.inputs, t.aux, hi, hs, fun k hk => (t.tidy k hk).1, inRange_of_tidy t.tidy⟩
  · simp only [powerOff, bind, StateT.bind, Except.bind, h2, pure, StateT.pure, Except.pure]
  · simp only [bind, StateT.bind, Except.bind, h1, pure, StateT.pure, Except.pure]

/-- What `power_on` returns fits the circuit without values, and the public values come back from the text
that is written for them. -/
theorem powerOn_fits (n : Nat) (hn : 0 < n) (k : List (ZMod p)) (B : Schemes (ZMod p) R)
    (hF : ∀ x, B.decF (B.encF x) = some x) (circuit : List Nat) (kind : Kind) (hk : kindOf circuit = some kind)
    (rest : List (List Nat)) (hh : Honest p circuit rest) (c : Synth (ZMod p) Unit) (publics : Publics (ZMod p))
    (hc : powerOn n k rest kind = some (c, publics)) :
    ∃ pubs, readPublics B (paramsOf B publics) kind = .ok pubs ∧ Fits (powerOff n k kind) c pubs := by
  cases kind with
  | mini =>
    have hci : circuit = tx "mini" := by
      unfold kindOf at hk
      split at hk
      · assumption
      · split at hk <;> cases hk
    match rest, hh, hc with
    | a0 :: a1 :: a2 :: rest, hh, hc =>
      simp only [powerOn] at hc
      split at hc
      · rename_i x y z hx hy hz
        rw [Option.some.injEq, Prod.mk.injEq] at hc
        obtain ⟨rfl, rfl⟩ := hc
        refine ⟨[(z : ZMod p)], ?_, mini_fits n k _ _ _ (hh hci a0 a1 a2 x y z rfl rfl rfl hx hy hz)⟩
        simp [readPublics, paramsOf, orPanic, Outcome.bind, parseU64_toDecimal z (parseU64_lt _ _ hz)]
      · cases hc
    | [], _, hc => simp [powerOn] at hc
    | [_], _, hc => simp [powerOn] at hc
    | [_, _], _, hc => simp [powerOn] at hc
  | hash =>
    match rest, hc with
    | a0 :: rest, hc =>
      simp only [powerOn] at hc
      split at hc
      · rename_i h hb
        rw [Option.some.injEq, Prod.mk.injEq] at hc
        obtain ⟨rfl, rfl⟩ := hc
        refine ⟨[h], ?_, hash_fits n hn k _ h hb⟩
        simp [readPublics, paramsOf, orPanic, Outcome.bind, hexOrPanic, C68_roundtrip, hF]
      · cases hc
    | [], hc => simp [powerOn] at hc

theorem orPanic_ok {α : Type} {o : Option α} {a : α} (h : orPanic o = .ok a) : o = some a := by
  cases o <;> simp [orPanic] at h ⊢
  exact h

theorem bind_ok {α β : Type} {o : Outcome α} {f : α → Outcome β} {b : β} (h : o.bind f = .ok b) :
    ∃ a, o = .ok a ∧ f a = .ok b := by
  cases o with
  | ok a => exact ⟨a, rfl, h⟩
  | err => simp [Outcome.bind] at h
  | panic => simp [Outcome.bind] at h

theorem put_same {α : Type} (m : List Nat → Option α) (k : List Nat) (v : α) : put m k v k = some v := by
  simp [put]

theorem put_other {α : Type} (m : List Nat → Option α) (k x : List Nat) (v : α) (h : x ≠ k) :
    put m k v x = m x := by
  simp [put, h]

/-- C110.  Whoever runs `setup`, then `zkp-prove` with the same scheme, curve and circuit (for Bulletproofs
only the latter) on arguments that make a true statement, and then `zkp-verify` on the file that was
written, sees the verdict true: the tools pass keys, public values and proofs on unchanged, and prove the
circuit that was set up. -/
theorem C110_roundtrip (n : Nat) (hn : 0 < n) (k : List (ZMod p)) (B : Schemes (ZMod p) R)
    (hF : ∀ x, B.decF (B.encF x) = some x) (prog scheme curve circuit : List Nat) (rest : List (List Nat))
    (hB : Complete B scheme) (hh : Honest p circuit rest) (w w1 w2 : World) (r r' : R)
    (hs : scheme ≠ tx "bulletproofs" → setupMain n k B r w [prog, scheme, curve, circuit] = .ok w1)
    (hp : proveMain n k B r' w1 (prog :: scheme :: curve :: circuit :: rest) = .ok w2) :
    verifyMain B w2 [prog, proofPath scheme curve circuit] = .ok true := by
  unfold proveMain at hp
  rw [if_neg (by simp)] at hp
  simp only [List.getElem?_cons_succ, List.getElem?_cons_zero, orPanic, Outcome.bind, List.drop_succ_cons,
    List.drop_zero] at hp
  split at hp
  case isFalse => cases hp
  rename_i hcurve
  split at hp
  case h_2 => cases hp
  rename_i kind hkind
  obtain ⟨⟨c, publics⟩, hon, hp⟩ := bind_ok hp
  obtain ⟨bytes, hbytes, hp⟩ := bind_ok hp
  simp only [Outcome.ok.injEq] at hp
  have hon := orPanic_ok hon
  obtain ⟨pubs, hpubs, hfits⟩ := powerOn_fits n hn k B hF circuit kind hkind rest hh c publics hon
  have hset : w2.setup = w1.setup := by rw [← hp]
  have hfile : w2.proofs (proofPath scheme curve circuit) =
      some ⟨circuit, scheme, curve, paramsOf B publics, toHex bytes⟩ := by rw [← hp]; exact put_same _ _ _
  have hver : verifyScheme B w2 pubs scheme curve circuit bytes = .ok true := by
    unfold proveScheme at hbytes
    unfold verifyScheme
    rw [hset]
    have hs' : scheme ≠ tx "bulletproofs" → setupScheme B r w (powerOff n k kind) scheme curve circuit = .ok w1 := by
      intro hne
      have := hs hne
      simpa [setupMain, orPanic, Outcome.bind, hcurve, hkind] using this
    by_cases h1 : scheme = tx "groth16"
    · have hsu := hs' (by rw [h1]; decide)
      unfold setupScheme at hsu
      simp only [if_pos h1] at hbytes hsu ⊢
      obtain ⟨⟨vk, pk⟩, hk, hsu⟩ := bind_ok hsu
      simp only [Outcome.ok.injEq] at hsu
      have hk := orPanic_ok hk
      have hb := orPanic_ok hbytes
      have e1 : readOr w1.setup (fileName scheme curve circuit ".pk") = pk := by
        rw [← hsu]
        simp only [readOr]
        rw [put_other _ _ _ _ (by
          intro h
          have := List.append_cancel_left h
          revert this
          decide), put_same]
        rfl
      have e2 : readOr w1.setup (fileName scheme curve circuit ".vk") = vk := by
        rw [← hsu]
        simp only [readOr]
        rw [put_same]
        rfl
      rw [e1] at hb
      rw [e2, hB.groth16 h1 _ _ _ hfits _ _ _ _ _ hk hb]
      rfl
    · rw [if_neg h1] at hbytes ⊢
      by_cases h2 : scheme = tx "bulletproofs"
      · rw [if_pos h2] at hbytes ⊢
        rw [hB.bulletproofs h2 _ _ _ hfits _ _ (orPanic_ok hbytes)]
        rfl
      · have hsu := hs' h2
        unfold setupScheme at hsu
        rw [if_neg h1] at hsu
        rw [if_neg h2] at hbytes ⊢
        by_cases h3 : scheme = tx "spartan_snark"
        · simp only [if_pos h3] at hbytes hsu ⊢
          obtain ⟨srs, hk, hsu⟩ := bind_ok hsu
          simp only [Outcome.ok.injEq] at hsu
          have hb := orPanic_ok hbytes
          have e1 : readOr w1.setup (fileName scheme curve circuit ".universal_setup") = srs := by
            rw [← hsu]
            simp only [readOr]
            rw [put_same]
            rfl
          rw [e1] at hb ⊢
          rw [hB.snark h3 _ _ _ hfits _ _ _ _ (orPanic_ok hk) hb]
          rfl
        · rw [if_neg h3] at hbytes hsu ⊢
          by_cases h4 : scheme = tx "spartan_nizk"
          · simp only [if_pos h4] at hbytes hsu ⊢
            obtain ⟨srs, hk, hsu⟩ := bind_ok hsu
            simp only [Outcome.ok.injEq] at hsu
            have hb := orPanic_ok hbytes
            have e1 : readOr w1.setup (fileName scheme curve circuit ".universal_setup") = srs := by
              rw [← hsu]
              simp only [readOr]
              rw [put_same]
              rfl
            rw [e1] at hb ⊢
            rw [hB.nizk h4 _ _ _ hfits _ _ _ _ (orPanic_ok hk) hb]
            rfl
          · rw [if_neg h4] at hbytes
            cases hbytes
  rw [hcurve] at hver hfile ⊢
  unfold verifyMain
  rw [if_neg (by simp)]
  simp only [List.getElem?_cons_succ, List.getElem?_cons_zero, orPanic, Outcome.bind, hfile, hexOrPanic,
    C68_roundtrip, if_true, hkind, hpubs]
  exact hver

end

/-- A toy proof system for the examples: the setup writes fixed keys, the prover wants the proving key and
evaluates the circuit, the verifier wants the verification key and a proof that names the public values. -/
def toy : Schemes (ZMod 17) Unit where
  groth16Setup _ _ := some ([7], [9])
  groth16Prove pk c _ := if pk = [9] then
      match c (CS.new true) with
      | .ok (_, cs) => some (cs.inputs.tail.map fun x => UInt8.ofNat x.val)
      | .error _ => none
    else none
  groth16Verify vk pf pubs := if vk = [7] then some (decide (pf = pubs.map fun x => UInt8.ofNat x.val)) else none
  bulletproofsProve _ _ := none
  bulletproofsVerify _ _ := none
  snarkSetup _ _ := none
  snarkProve _ _ _ := none
  snarkVerify _ _ _ := none
  nizkSetup _ _ := none
  nizkProve _ _ _ := none
  nizkVerify _ _ _ := none
  encF x := [UInt8.ofNat x.val]
  decF b := b.head?.map fun x => (x.toNat : ZMod 17)

theorem toy_complete (scheme : List Nat) : Complete toy scheme where
  groth16 := by
    rintro - off on pubs ⟨c0, c, -, h, -, -, -, hi, -⟩ r r' vk pk pf hs hp
    simp only [toy, Option.some.injEq, Prod.mk.injEq] at hs
    obtain ⟨rfl, rfl⟩ := hs
    simp only [toy, if_true, h, hi, List.tail_cons, Option.some.injEq] at hp
    simp [toy, ← hp]
  bulletproofs := by rintro - _ _ _ - _ _ h; simp [toy] at h
  snark := by rintro - _ _ _ - _ _ _ _ h; simp [toy] at h
  nizk := by rintro - _ _ _ - _ _ _ _ h; simp [toy] at h

/-- The empty working directory. -/
def emptyWorld : World := ⟨fun _ => none, fun _ => none⟩

/-- Whether a run ends with `Ok`. -/
def Outcome.isOk {α : Type} : Outcome α → Bool
  | .ok _ => true
  | _ => false

theorem ok_of_isOk {α : Type} {o : Outcome α} (h : o.isOk = true) : ∃ a, o = .ok a := by
  cases o with
  | ok a => exact ⟨a, rfl⟩
  | err => cases h
  | panic => cases h

/-- `3 · (4 + 2) = 18` over the field with 17 elements: set up, proved and verified.  The field is small, so
`1` stands for `18`, too. -/
example : ∃ w1 w2, setupMain 32 [] toy () emptyWorld [tx "setup", tx "groth16", tx "bls12_381", tx "mini"] = .ok w1 ∧
    proveMain 32 [] toy () w1 [tx "zkp-prove", tx "groth16", tx "bls12_381", tx "mini", tx "3", tx "4", tx "18"] =
      .ok w2 ∧ Honest 17 (tx "mini") [tx "3", tx "4", tx "18"] ∧
    (∀ x, toy.decF (toy.encF x) = some x) := by
  obtain ⟨w2, h2⟩ := ok_of_isOk (o := proveMain 32 [] toy () ⟨put (put (fun _ => none) (tx "groth16-bls12_381-mini.pk") [9])
      (tx "groth16-bls12_381-mini.vk") [7], fun _ => none⟩
    [tx "zkp-prove", tx "groth16", tx "bls12_381", tx "mini", tx "3", tx "4", tx "18"]) (by decide +kernel)
  refine ⟨_, w2, rfl, h2, ?_, by decide⟩
  intro _ a b c x y z ha hb hc hx hy hz
  simp only [List.getElem?_cons_zero, List.getElem?_cons_succ, Option.some.injEq] at ha hb hc
  subst ha hb hc
  have e1 : parseU64 (tx "3") = some 3 := by decide
  have e2 : parseU64 (tx "4") = some 4 := by decide
  have e3 : parseU64 (tx "18") = some 18 := by decide
  rw [e1, Option.some.injEq] at hx
  rw [e2, Option.some.injEq] at hy
  rw [e3, Option.some.injEq] at hz
  subst hx hy hz
  decide

section
open Bp

variable {p : Nat} [Fact p.Prime] {G : Type} [AddCommGroup G] [Module (ZMod p) G] [DecidableEq G]

/-- C110, Bulletproofs: completeness of the library functions is not an assumption here; it follows from
the completeness theorem of the model. -/
theorem C110_bulletproofs (ch : Oracle (ZMod p) G)
    (dec : List UInt8 → Option (Generators G × R1csCircuit (ZMod p) × Bp.Proof (ZMod p) G))
    (enc : Generators G × R1csCircuit (ZMod p) × Bp.Proof (ZMod p) G → List UInt8)
    (henc : ∀ t, dec (enc t) = some t) (n : Nat) (hn : 0 < n) (k : List (ZMod p))
    (B : Schemes (ZMod p) (Tape (ZMod p) G)) (hF : ∀ x, B.decF (B.encF x) = some x)
    (hprove : B.bulletproofsProve = bulletproofsProveBytes ch enc)
    (hverify : B.bulletproofsVerify = bulletproofsVerifyBytes ch dec)
    (prog curve circuit : List Nat) (rest : List (List Nat)) (hh : Honest p circuit rest) (w w2 : World)
    (r : Tape (ZMod p) G)
    (hp : proveMain n k B r w (prog :: tx "bulletproofs" :: curve :: circuit :: rest) = .ok w2) :
    verifyMain B w2 [prog, proofPath (tx "bulletproofs") curve circuit] = .ok true := by
  refine C110_roundtrip n hn k B hF prog (tx "bulletproofs") curve circuit rest ⟨?_, ?_, ?_, ?_⟩ hh w w w2 r r
    (fun h => absurd rfl h) hp
  · intro h; exact absurd h (by decide)
  · rintro - off on pubs ⟨c0, c, -, h, -, -, -, hi, hs, hnr, hr⟩ r pf hpf
    rw [hprove] at hpf
    rw [hverify]
    simp only [bulletproofsProveBytes, h, Option.map_eq_some_iff] at hpf
    obtain ⟨⟨gens, circuit, pr⟩, hc, rfl⟩ := hpf
    have := (bulletproofs_complete ch c pubs hi hnr hs _ _ _ _ _ _ (r.gv_len _) (r.hv_len _) (r.sL_len _)
      (r.sR_len _) gens circuit pr hc).2.2
    simp only [bulletproofsVerifyBytes, henc, this]
  · intro h; exact absurd h (by decide)
  · intro h; exact absurd h (by decide)

/-- The prover of the tool does succeed, for example on `3 · (4 + 2) = 18`, whatever the challenges, as long
as none of them is zero. -/
example (ch : Oracle (ZMod p) G) (hch : ∀ t, ch t ≠ 0)
    (enc : Generators G × R1csCircuit (ZMod p) × Bp.Proof (ZMod p) G → List UInt8) (n : Nat) (k : List (ZMod p))
    (B : Schemes (ZMod p) (Tape (ZMod p) G)) (hprove : B.bulletproofsProve = bulletproofsProveBytes ch enc)
    (w : World) (r : Tape (ZMod p) G) :
    ∃ w2, proveMain n k B r w [tx "zkp-prove", tx "bulletproofs", tx "bls12_381", tx "mini", tx "3", tx "4", tx "18"] =
      .ok w2 := by
  obtain ⟨c0, c, -, h, -, -, -, hi, hs, hnr, hr⟩ := mini_fits n k (3 : ZMod p) 4 18 (by norm_num)
  obtain ⟨r1, r2, c1, c2, h1, h2, t, -⟩ := mini_twin (3 : ZMod p) 4 18 10
  obtain ⟨vx, vy, cs', h3, -, -, hl⟩ := C73_complete (3 : ZMod p) 4 10
  have e18 : (3 : ZMod p) * (4 + 2) = 18 := by norm_num
  rw [e18] at h3
  have h3' : (do let _ ← mini (some (3 : ZMod p)) (some 4) (some 18) 10 : Synth (ZMod p) Unit) (CS.new true) =
      .ok ((), cs') := by
    simp only [bind, StateT.bind, Except.bind, h3, pure, StateT.pure, Except.pure]
  rw [h3', Except.ok.injEq, Prod.mk.injEq] at h
  obtain ⟨-, rfl⟩ := h
  obtain ⟨x, hx⟩ := bulletproofs_prover_succeeds ch hch cs' (by intro h; rw [h] at hl; cases hl) hr
    (r.gv (max cs'.constraints.length cs'.aux.length)) (r.hv (max cs'.constraints.length cs'.aux.length)) r.g r.h r.u
    (r.rnd (max cs'.constraints.length cs'.aux.length)) (r.gv_len _) (r.hv_len _)
  have e1 : parseU64 (tx "3") = some 3 := by decide
  have e2 : parseU64 (tx "4") = some 4 := by decide
  have e3 : parseU64 (tx "18") = some 18 := by decide
  have e4 : kindOf (tx "mini") = some .mini := by decide
  unfold proveMain
  rw [if_neg (by simp)]
  simp only [List.getElem?_cons_succ, List.getElem?_cons_zero, orPanic, Outcome.bind, if_true, e4, List.drop_succ_cons,
    List.drop_zero, powerOn, e1, e2, e3]
  have e5 : bulletproofsProveBytes ch enc
      (do let _ ← mini (some ((3 : Nat) : ZMod p)) (some ((4 : Nat) : ZMod p)) (some ((18 : Nat) : ZMod p)) 10) r =
      some (enc x) := by
    simp only [bulletproofsProveBytes, Nat.cast_ofNat, h3', hx, Option.map_some]
  unfold proveScheme
  rw [if_neg (by decide), if_pos rfl, hprove, e5]
  exact ⟨_, rfl⟩

/-! ### C111: what the verdict is about -/

/-- The public inputs that `zkp-verify` should use, as text and bytes say. -/
def PublicsAre (decF : List UInt8 → Option (ZMod p)) (params : List (List Nat)) (pubs : List (ZMod p)) : Kind → Prop
  | .mini => ∃ s rest z, params = s :: rest ∧ parseU64 s = some z ∧ pubs = [(z : ZMod p)]
  | .hash => ∃ s rest b x, params = s :: rest ∧ fromHex s = .ok b ∧ decF b = some x ∧ pubs = [x]

theorem readPublics_iff {R : Type} (B : Schemes (ZMod p) R) (params : List (List Nat)) (pubs : List (ZMod p))
    (kind : Kind) : readPublics B params kind = .ok pubs ↔ PublicsAre B.decF params pubs kind := by
  cases kind with
  | mini =>
    constructor
    · intro h
      obtain ⟨s, hs, h1⟩ := bind_ok h
      obtain ⟨z, hz, h2⟩ := bind_ok h1
      clear h h1
      cases params with
      | nil => simp [orPanic] at hs
      | cons a rest =>
        simp only [List.getElem?_cons_zero, orPanic, Outcome.ok.injEq] at hs
        subst hs
        exact ⟨a, rest, z, rfl, orPanic_ok hz, by simpa using h2.symm⟩
    · rintro ⟨s, rest, z, rfl, hz, rfl⟩
      simp [readPublics, orPanic, Outcome.bind, hz]
  | hash =>
    constructor
    · intro h
      obtain ⟨s, hs, h1⟩ := bind_ok h
      obtain ⟨b, hb, h2⟩ := bind_ok h1
      obtain ⟨x, hx, h3⟩ := bind_ok h2
      clear h h1 h2
      cases params with
      | nil => simp [orPanic] at hs
      | cons a rest =>
        simp only [List.getElem?_cons_zero, orPanic, Outcome.ok.injEq] at hs
        subst hs
        refine ⟨a, rest, b, x, rfl, ?_, orPanic_ok hx, by simpa using h3.symm⟩
        unfold hexOrPanic at hb
        split at hb
        · rename_i v hv; rw [hv]; simpa using hb
        · cases hb
    · rintro ⟨s, rest, b, x, rfl, hb, hx, rfl⟩
      simp [readPublics, orPanic, Outcome.bind, hexOrPanic, hb, hx]

theorem hexOrPanic_ok {s : List Nat} {v : List UInt8} : hexOrPanic s = .ok v ↔ fromHex s = .ok v := by
  unfold hexOrPanic
  cases fromHex s <;> simp

/-- C111, what holds: `zkp-verify` prints true exactly if the file is there, names a known curve, circuit
and scheme, its text parses, and the verifier of the scheme accepts the proof with the public values of the
file and (except with Bulletproofs) the key file of this scheme, curve and circuit, a missing key file
counting as empty.  Missing: that with Bulletproofs, too, the verdict is about the circuit that is named. -/
theorem C111_partial {R : Type} (B : Schemes (ZMod p) R) (w : World) (prog path : List Nat) :
    verifyMain B w [prog, path] = .ok true ↔
      ∃ f bytes kind pubs, w.proofs path = some f ∧ fromHex f.proof = .ok bytes ∧ f.curve = tx "bls12_381" ∧
        ((f.circuit = tx "mini" ∧ kind = .mini) ∨ (f.circuit = tx "hash" ∧ kind = .hash)) ∧
        PublicsAre B.decF f.params pubs kind ∧
        ((f.scheme = tx "groth16" ∧
            B.groth16Verify ((w.setup (f.scheme ++ tx "-bls12_381-" ++ f.circuit ++ tx ".vk")).getD []) bytes pubs =
              some true) ∨
          (f.scheme = tx "bulletproofs" ∧ B.bulletproofsVerify bytes pubs = some true) ∨
          (f.scheme = tx "spartan_snark" ∧
            B.snarkVerify ((w.setup (f.scheme ++ tx "-bls12_381-" ++ f.circuit ++ tx ".universal_setup")).getD [])
              bytes pubs = some true) ∨
          (f.scheme = tx "spartan_nizk" ∧
            B.nizkVerify ((w.setup (f.scheme ++ tx "-bls12_381-" ++ f.circuit ++ tx ".universal_setup")).getD [])
              bytes pubs = some true)) := by
  have hname : ∀ (s c : List Nat) (ext : String), fileName s (tx "bls12_381") c ext =
      s ++ tx "-bls12_381-" ++ c ++ tx ext := by
    intro s c ext
    have : tx "-bls12_381-" = tx "-" ++ tx "bls12_381" ++ tx "-" := by decide
    simp only [fileName, this, List.append_assoc]
  have hop : ∀ o : Option Bool, orPanic o = .ok true ↔ o = some true := by
    intro o; cases o <;> simp [orPanic]
  have hscheme : ∀ (f : ProofFile) (bytes : List UInt8) (pubs : List (ZMod p)), f.curve = tx "bls12_381" →
      (verifyScheme B w pubs f.scheme f.curve f.circuit bytes = .ok true ↔ ((f.scheme = tx "groth16" ∧
            B.groth16Verify ((w.setup (f.scheme ++ tx "-bls12_381-" ++ f.circuit ++ tx ".vk")).getD []) bytes pubs =
              some true) ∨
          (f.scheme = tx "bulletproofs" ∧ B.bulletproofsVerify bytes pubs = some true) ∨
          (f.scheme = tx "spartan_snark" ∧
            B.snarkVerify ((w.setup (f.scheme ++ tx "-bls12_381-" ++ f.circuit ++ tx ".universal_setup")).getD [])
              bytes pubs = some true) ∨
          (f.scheme = tx "spartan_nizk" ∧
            B.nizkVerify ((w.setup (f.scheme ++ tx "-bls12_381-" ++ f.circuit ++ tx ".universal_setup")).getD [])
              bytes pubs = some true))) := by
    intro f bytes pubs hc
    unfold verifyScheme readOr
    rw [hc, hname, hname]
    have n12 : tx "groth16" ≠ tx "bulletproofs" := by decide
    have n13 : tx "groth16" ≠ tx "spartan_snark" := by decide
    have n14 : tx "groth16" ≠ tx "spartan_nizk" := by decide
    have n23 : tx "bulletproofs" ≠ tx "spartan_snark" := by decide
    have n24 : tx "bulletproofs" ≠ tx "spartan_nizk" := by decide
    have n34 : tx "spartan_snark" ≠ tx "spartan_nizk" := by decide
    by_cases h1 : f.scheme = tx "groth16"
    · simp [h1, n12, n13, n14, hop]
    · by_cases h2 : f.scheme = tx "bulletproofs"
      · simp [h2, n12.symm, n23, n24, hop]
      · by_cases h3 : f.scheme = tx "spartan_snark"
        · simp [h3, n13.symm, n23.symm, n34, hop]
        · by_cases h4 : f.scheme = tx "spartan_nizk"
          · simp [h4, n14.symm, n24.symm, n34.symm, hop]
          · simp [h1, h2, h3, h4]
  have hkind : ∀ (c : List Nat) kind, kindOf c = some kind ↔
      (c = tx "mini" ∧ kind = .mini) ∨ (c = tx "hash" ∧ kind = .hash) := by
    intro c kind
    have n12 : tx "mini" ≠ tx "hash" := by decide
    unfold kindOf
    by_cases h1 : c = tx "mini"
    · simp [h1, n12, eq_comm]
    · by_cases h2 : c = tx "hash"
      · simp [h2, n12.symm, eq_comm]
      · simp [h1, h2]
  constructor
  · intro h
    unfold verifyMain at h
    rw [if_neg (by simp)] at h
    obtain ⟨path', hpath, h⟩ := bind_ok h
    simp only [List.getElem?_cons_succ, List.getElem?_cons_zero, orPanic, Outcome.ok.injEq] at hpath
    subst hpath
    obtain ⟨f, hf, h⟩ := bind_ok h
    obtain ⟨bytes, hb, h⟩ := bind_ok h
    split at h
    case isFalse => cases h
    rename_i hc
    split at h
    case h_2 => cases h
    rename_i kind hk
    obtain ⟨pubs, hp, h⟩ := bind_ok h
    exact ⟨f, bytes, kind, pubs, orPanic_ok hf, hexOrPanic_ok.mp hb, hc, (hkind _ _).mp hk,
      (readPublics_iff B _ _ _).mp hp, (hscheme f bytes pubs hc).mp h⟩
  · rintro ⟨f, bytes, kind, pubs, hf, hb, hc, hk, hp, h⟩
    unfold verifyMain
    rw [if_neg (by simp)]
    simp only [List.getElem?_cons_succ, List.getElem?_cons_zero, orPanic, Outcome.bind, hf, hexOrPanic_ok.mpr hb,
      if_pos hc, (hkind _ _).mpr hk, (readPublics_iff B _ _ _).mpr hp]
    exact (hscheme f bytes pubs hc).mpr h

/-- Both sides happen: a file that is accepted. -/
example : verifyMain toy ⟨put (fun _ => none) (tx "groth16-bls12_381-mini.vk") [7],
    put (fun _ => none) (tx "f") ⟨tx "mini", tx "groth16", tx "bls12_381", [tx "1"], tx "01"⟩⟩ [tx "zkp-verify", tx "f"] =
      .ok true ∧
    verifyMain toy ⟨put (fun _ => none) (tx "groth16-bls12_381-mini.vk") [7],
    put (fun _ => none) (tx "f") ⟨tx "mini", tx "groth16", tx "bls12_381", [tx "2"], tx "01"⟩⟩ [tx "zkp-verify", tx "f"] =
      .ok false := by
  decide +kernel

/-- C111 as intended, for Bulletproofs: an accepted file carries a proof for the circuit it names. -/
def C111_statement {R : Type} (B : Schemes (ZMod p) R)
    (dec : List UInt8 → Option (Generators G × R1csCircuit (ZMod p) × Bp.Proof (ZMod p) G)) (n : Nat)
    (k : List (ZMod p)) : Prop :=
  ∀ (w : World) (prog path : List Nat) (f : ProofFile), w.proofs path = some f → f.scheme = tx "bulletproofs" →
    verifyMain B w [prog, path] = .ok true →
    ∃ kind cs bytes gens proof, kindOf f.circuit = some kind ∧ powerOff n k kind (CS.new false) = .ok ((), cs) ∧
      fromHex f.proof = .ok bytes ∧ dec bytes = some (gens, toCircuit cs, proof)

/-- C111 is violated with Bulletproofs: for both circuits, and whatever the public values in the file, there
is a proof with which `zkp-verify` prints true although it is an honest proof of `1 · 1 = 1`. -/
theorem C111_violated_for_all {R : Type} (ch : Oracle (ZMod p) G) (hch : ∀ t, ch t ≠ 0)
    (dec : List UInt8 → Option (Generators G × R1csCircuit (ZMod p) × Bp.Proof (ZMod p) G))
    (enc : Generators G × R1csCircuit (ZMod p) × Bp.Proof (ZMod p) G → List UInt8)
    (henc : ∀ t, dec (enc t) = some t) (B : Schemes (ZMod p) R)
    (hverify : B.bulletproofsVerify = bulletproofsVerifyBytes ch dec) (w : World) (prog path circuit : List Nat)
    (kind : Kind) (hk : kindOf circuit = some kind) (params : List (List Nat)) (x : ZMod p)
    (hx : PublicsAre B.decF params [x] kind) :
    ∃ gens proof, ∃ f : ProofFile, f.circuit = circuit ∧ f.scheme = tx "bulletproofs" ∧ f.params = params ∧
      f.proof = toHex (enc (gens, toCircuit (trivialCircuit x), proof)) ∧
      verifyMain B { w with proofs := put w.proofs path f } [prog, path] = .ok true := by
  have h1 : nextPow2 (max (trivialCircuit x).constraints.length (trivialCircuit x).aux.length) = 1 := by
    simp [trivialCircuit, nextPow2]
  have hsat : (trivialCircuit x).Sat (trivialCircuit x).witness := by
    intro k hk
    have : k = ⟨[(.input 0, 1)], [(.input 0, 1)], [(.input 0, 1)]⟩ := by simpa [trivialCircuit] using hk
    subst this
    simp [R1C.Holds, LC.eval, CS.witness, trivialCircuit]
  obtain ⟨⟨gens, circ, pr⟩, hr⟩ := bulletproofs_prover_succeeds ch hch (trivialCircuit x)
    (by simp [trivialCircuit]) (by simp [Groth16.inRange, trivialCircuit]) [0] [0] (0 : G) 0 0
    ⟨[0], [0], 0, 0, 0, 0, 0, 0, 0, 0, 0, 0, 0, 0⟩ (by rw [h1]; rfl) (by rw [h1]; rfl)
  obtain ⟨-, rfl, hv⟩ := bulletproofs_complete ch (trivialCircuit x) [x] rfl (by
    intro k hk
    have : k = ⟨[(.input 0, 1)], [(.input 0, 1)], [(.input 0, 1)]⟩ := by simpa [trivialCircuit] using hk
    subst this
    simp [LC.NoRepeat]) hsat [0] [0] 0 0 0 _ (by rw [h1]; rfl) (by rw [h1]; rfl)
    (by simp [trivialCircuit]) (by simp [trivialCircuit]) gens circ pr hr
  refine ⟨gens, pr, ⟨circuit, tx "bulletproofs", tx "bls12_381", params,
    toHex (enc (gens, toCircuit (trivialCircuit x), pr))⟩, rfl, rfl, rfl, rfl, ?_⟩
  rw [C111_partial]
  refine ⟨_, _, kind, [x], put_same _ _ _, C68_roundtrip _, rfl, ?_, hx, Or.inr (Or.inl ⟨rfl, ?_⟩)⟩
  · revert hk
    unfold kindOf
    by_cases h1 : circuit = tx "mini"
    · simp only [h1, if_true, Option.some.injEq]; rintro rfl; exact Or.inl ⟨trivial, rfl⟩
    · by_cases h2 : circuit = tx "hash"
      · rw [if_neg h1, if_pos h2]; intro h; exact Or.inr ⟨h2, (Option.some.inj h).symm⟩
      · rw [if_neg h1, if_neg h2]; intro h; cases h
  · rw [hverify]
    simp only [bulletproofsVerifyBytes, henc, hv]

theorem C111_violated {R : Type} (ch : Oracle (ZMod p) G) (hch : ∀ t, ch t ≠ 0)
    (dec : List UInt8 → Option (Generators G × R1csCircuit (ZMod p) × Bp.Proof (ZMod p) G))
    (enc : Generators G × R1csCircuit (ZMod p) × Bp.Proof (ZMod p) G → List UInt8)
    (henc : ∀ t, dec (enc t) = some t) (B : Schemes (ZMod p) R)
    (hverify : B.bulletproofsVerify = bulletproofsVerifyBytes ch dec) (n : Nat) (k : List (ZMod p)) :
    ¬ C111_statement B dec n k := by
  intro h
  obtain ⟨gens, pr, f, hc, hs, -, hf, hv⟩ := C111_violated_for_all ch hch dec enc henc B hverify emptyWorld (tx "zkp-verify")
    (tx "f") (tx "mini") .mini (by decide) [tx "5"] (5 : Nat) ⟨tx "5", [], 5, rfl, by decide, rfl⟩
  obtain ⟨kind, cs, bytes, gens', pr', hk, hcs, hb, hd⟩ := h _ _ _ f (put_same emptyWorld.proofs (tx "f") f) hs hv
  rw [hc] at hk
  have e : kind = .mini := by
    have : kindOf (tx "mini") = some .mini := by decide
    rw [this] at hk
    exact (Option.some.inj hk).symm
  subst e
  rw [hf, C68_roundtrip, HexResult.ok.injEq] at hb
  rw [← hb, henc, Option.some.injEq, Prod.mk.injEq, Prod.mk.injEq] at hd
  have hcl := congrArg (fun c => c.CL.length) hd.2.1
  obtain ⟨c0, c, h0, -, hcons, -, -, -, -⟩ := mini_fits n k (0 : ZMod p) 0 0 (by ring)
  obtain ⟨r1, r2, c1, c2, h1, h2, t, -⟩ := mini_twin (0 : ZMod p) 0 0 10
  obtain ⟨vx, vy, cs', h3, -, -, hl⟩ := C73_complete (0 : ZMod p) 0 10
  rw [zero_mul] at h3
  rw [h1, Except.ok.injEq, Prod.mk.injEq] at h3
  obtain ⟨-, rfl⟩ := h3
  have h2' : powerOff n k .mini (CS.new false) = .ok ((), c2) := by
    simp only [powerOff, bind, StateT.bind, Except.bind, h2, pure, StateT.pure, Except.pure]
  rw [h2', Except.ok.injEq, Prod.mk.injEq] at hcs
  obtain ⟨-, rfl⟩ := hcs
  rw [t.cons] at hl
  simp [toCircuit, trivialCircuit, hl] at hcl

/-- Challenges without zero and encodings that can be decoded exist. -/
example : ∃ (ch : Oracle (ZMod 17) (ZMod 17)), ∀ t, ch t ≠ 0 := ⟨fun _ => 3, fun _ => (by decide : (3 : ZMod 17) ≠ 0)⟩

end

/-! ### C112: how the tools end -/

section
variable {p : Nat} [Fact p.Prime] {R : Type}

/-- C112 as intended: wrong usage is answered with an error message rather than a panic, and a rejected
proof is visible in the exit status. -/
structure C112_statement (n : Nat) (k : List (ZMod p)) (B : Schemes (ZMod p) R) : Prop where
  setup : ∀ r w args, args.length < 3 → setupMain n k B r w args = .err
  prove : ∀ r w args, args.length < 4 → proveMain n k B r w args = .err
  verify : ∀ w args, verifyMain B w args = .ok false → (verifyMain B w args).exitCode ≠ 0

/-- C112 is violated in all three: `setup <scheme>`, `zkp-prove <scheme>` and
`zkp-prove <scheme> <curve>` panic for every scheme and curve. -/
theorem C112_violated_usage (n : Nat) (k : List (ZMod p)) (B : Schemes (ZMod p) R) (r : R) (w : World)
    (prog scheme curve : List Nat) :
    setupMain n k B r w [prog, scheme] = .panic ∧ proveMain n k B r w [prog, scheme] = .panic ∧
      proveMain n k B r w [prog, scheme, curve] = .panic := by
  simp [setupMain, proveMain, orPanic, Outcome.bind]

/-- C112 is violated by `zkp-verify`: whatever it prints, it exits with status 0. -/
theorem C112_violated_verdict (B : Schemes (ZMod p) R) (w : World) (args : List (List Nat)) (b : Bool)
    (h : verifyMain B w args = .ok b) : (verifyMain B w args).exitCode = 0 := by
  rw [h]; rfl

theorem C112_violated (n : Nat) (k : List (ZMod p)) (B : Schemes (ZMod p) R) (r : R) : ¬ C112_statement n k B := by
  intro h
  have := h.setup r emptyWorld [tx "setup", tx "groth16"] (by simp)
  rw [(C112_violated_usage n k B r emptyWorld _ _ []).1] at this
  cases this

/-- A rejected proof, with exit status 0. -/
example : ∃ w args, verifyMain toy w args = .ok false ∧ (verifyMain toy w args).exitCode = 0 :=
  ⟨⟨put (fun _ => none) (tx "groth16-bls12_381-mini.vk") [7],
    put (fun _ => none) (tx "f") ⟨tx "mini", tx "groth16", tx "bls12_381", [tx "2"], tx "01"⟩⟩, [tx "zkp-verify", tx "f"],
    by decide +kernel, by decide +kernel⟩

/-- C112, what holds: without any argument the three tools return an error, and with enough arguments an
unknown curve, circuit or (for `setup`) scheme is an error, not a panic.  Missing: the too short argument
lists above and the exit status of a rejection. -/
theorem C112_partial (n : Nat) (k : List (ZMod p)) (B : Schemes (ZMod p) R) (r : R) (w : World) :
    (∀ args : List (List Nat), args.length < 2 →
      setupMain n k B r w args = .err ∧ proveMain n k B r w args = .err ∧ verifyMain B w args = .err) ∧
    (∀ prog scheme curve circuit rest, curve ≠ tx "bls12_381" ∨ (circuit ≠ tx "mini" ∧ circuit ≠ tx "hash") →
      setupMain n k B r w (prog :: scheme :: curve :: circuit :: rest) = .err ∧
      proveMain n k B r w (prog :: scheme :: curve :: circuit :: rest) = .err) ∧
    (∀ prog scheme curve rest, scheme ≠ tx "groth16" → scheme ≠ tx "spartan_snark" → scheme ≠ tx "spartan_nizk" →
      setupMain n k B r w (prog :: scheme :: curve :: rest) = .err) := by
  refine ⟨fun args h => ?_, fun prog scheme curve circuit rest h => ?_, fun prog scheme curve rest h1 h2 h3 => ?_⟩
  · simp [setupMain, proveMain, verifyMain, h]
  · rcases h with h | ⟨h1, h2⟩
    · simp [setupMain, proveMain, orPanic, Outcome.bind, h]
    · have : kindOf circuit = none := by simp [kindOf, h1, h2]
      simp [setupMain, proveMain, orPanic, Outcome.bind, this]
  · unfold setupMain
    rw [if_neg (by simp)]
    simp only [List.getElem?_cons_succ, List.getElem?_cons_zero, orPanic, Outcome.bind]
    split
    · split
      · simp [setupScheme, h1, h2, h3]
      · rfl
    · rfl

example : tx "bulletproofs" ≠ tx "groth16" ∧ tx "bulletproofs" ≠ tx "spartan_snark" ∧
    tx "bulletproofs" ≠ tx "spartan_nizk" ∧ tx "bls12_377" ≠ tx "bls12_381" := by decide

end

end Zkp.Cli
