/- C107: where Hyrax's verifier puts the public inputs of the instances. -/
import Verif.Props.HyraxChecked

namespace Zkp.Hx

open Zkp.Ml Zkp.Spartan Zkp.Sc Zkp.Gkr
open Zkp.Cp (packCommit bind_inv say_inv challenge_inv ensure_inv orPanic_inv pure_inv evalVerify)

set_option linter.unusedSectionVars false
set_option linter.unusedSimpArgs false

variable {F : Type} [Field F] {G : Type} [AddCommGroup G] [Module F G] [DecidableEq F] [DecidableEq G]

/-! ### Runs that differ in the start of the transcript -/

/-- What `x` does after `A`, `y` does after `B`. -/
def Moves {α : Type} (A B : Transcript F G) (x y : Vf F G α) : Prop :=
  ∀ t a t', x (A ++ t) = .ok (a, t') → ∃ s, t' = A ++ s ∧ y (B ++ t) = .ok (a, B ++ s)

section moves

variable {ch ch' : Oracle F G} {A B : Transcript F G}

theorem Moves.bind {α β : Type} {x y : Vf F G α} {f g : α → Vf F G β} (hx : Moves A B x y) (hf : ∀ a, Moves A B (f a) (g a)) :
    Moves A B (x >>= f) (y >>= g) := by
  intro t a t' h
  obtain ⟨b, t1, h1, h2⟩ := bind_inv h
  obtain ⟨s, rfl, e1⟩ := hx _ _ _ h1
  obtain ⟨s', rfl, e2⟩ := hf b _ _ _ h2
  exact ⟨s', rfl, bind_run e1 e2⟩

theorem Moves.pure {α : Type} (a : α) : Moves A B (Pure.pure a : Vf F G α) (Pure.pure a) := by
  intro t b t' h
  obtain ⟨rfl, rfl⟩ := pure_inv h
  exact ⟨t, rfl, rfl⟩

theorem Moves.say (m : Msg F G) : Moves A B (Spartan.say m) (Spartan.say m) := by
  intro t b t' h
  obtain rfl := say_inv h
  exact ⟨t ++ [m], by rw [List.append_assoc], by rw [← List.append_assoc]; rfl⟩

theorem Moves.ensure (e : Stop) (b : Bool) : Moves A B (Spartan.ensure e b : Vf F G Unit) (Spartan.ensure e b) := by
  intro t x t' h
  obtain ⟨hb, rfl⟩ := ensure_inv h
  refine ⟨t, rfl, ?_⟩
  rw [hb]
  rfl

theorem Moves.orPanic {α : Type} {x y : Option α} (h : ∀ a, x = some a → y = some a) :
    Moves A B (Spartan.orPanic x : Vf F G α) (Spartan.orPanic y) := by
  intro t a t' hr
  obtain ⟨e, rfl⟩ := orPanic_inv hr
  refine ⟨t, rfl, ?_⟩
  rw [h a e]
  rfl

theorem Moves.same {α : Type} {x : Option α} : Moves A B (Spartan.orPanic x : Vf F G α) (Spartan.orPanic x) :=
  Moves.orPanic fun _ h => h

variable (hAB : ∀ s l, ch' (A ++ s ++ [.chal l]) = ch (B ++ s ++ [.chal l]))
include hAB

theorem Moves.challenge (l : String) : Moves A B (Spartan.challenge ch' l) (Spartan.challenge ch l) := by
  intro t b t' h
  obtain ⟨rfl, rfl⟩ := challenge_inv h
  refine ⟨t ++ [.chal l], by rw [List.append_assoc], ?_⟩
  rw [hAB t l, ← List.append_assoc]
  rfl

theorem Moves.challenges (l : String) (n : Nat) : Moves A B (Spartan.challenges ch' l n) (Spartan.challenges ch l n) := by
  induction n with
  | zero => exact Moves.pure _
  | succ n ih => exact (Moves.challenge hAB l).bind fun _ => ih.bind fun _ => Moves.pure _

theorem Moves.bullet (L R : List G) : Moves A B (bulletChallenges ch' L R) (bulletChallenges ch L R) := by
  induction L generalizing R with
  | nil => exact Moves.pure _
  | cons l L ih =>
    cases R with
    | nil => exact Moves.pure _
    | cons r R =>
      exact (Moves.say _).bind fun _ => (Moves.say _).bind fun _ => (Moves.challenge hAB _).bind fun _ =>
        (Moves.ensure _ _).bind fun _ => (ih R).bind fun _ => Moves.pure _

theorem Moves.eq (params : MultiParams G) (a b : G) (p : EqProof F G) :
    Moves A B (eqVerify ch' params a b p) (eqVerify ch params a b p) :=
  (Moves.say _).bind fun _ => (Moves.say _).bind fun _ => (Moves.say _).bind fun _ => (Moves.challenge hAB _).bind fun _ =>
    Moves.pure _

theorem Moves.product (params : MultiParams G) (proof : ProdProof F G) (a b c : G) :
    Moves A B (productVerify ch' params proof a b c) (productVerify ch params proof a b c) :=
  Moves.same.bind fun _ => Moves.same.bind fun _ => Moves.same.bind fun _ =>
    Moves.same.bind fun _ => Moves.same.bind fun _ => (Moves.say _).bind fun _ => (Moves.say _).bind fun _ =>
    (Moves.say _).bind fun _ => (Moves.say _).bind fun _ => (Moves.say _).bind fun _ => (Moves.say _).bind fun _ =>
    (Moves.challenge hAB _).bind fun _ => Moves.pure _

theorem Moves.eval (params : PcParams G) (ry : List F) (commits : List G) (c : G) (proof : DotProof F G) :
    Moves A B (evalVerify ch' params ry commits c proof) (evalVerify ch params ry commits c proof) :=
  (Moves.say _).bind fun _ => (Moves.say _).bind fun _ =>
    ((Moves.ensure _ _).bind fun _ => (Moves.bullet hAB _ _).bind fun _ => (Moves.ensure _ _).bind fun _ =>
      (Moves.ensure _ _).bind fun _ => Moves.pure _).bind fun _ =>
    (Moves.say _).bind fun _ => (Moves.say _).bind fun _ => (Moves.challenge hAB _).bind fun _ =>
    Moves.same.bind fun _ => Moves.pure _

/-- The claim about the input layer, for other inputs with the same values. -/
theorem Moves.input (params : Params G) (com : List G) (prod : DotProof F G) (y : G) (eq : EqProof F G) (ins ins' qa q : List F)
    (comm : G) (h : ∀ pt a, evalValue ins' pt = some a → evalValue ins pt = some a) :
    Moves A B (inputVerify ch' params com prod y eq ins' qa q comm) (inputVerify ch params com prod y eq ins qa q comm) :=
  (Moves.ensure _ _).bind fun _ => (Moves.eval hAB _ _ _ _ _).bind fun _ => (Moves.ensure _ _).bind fun _ =>
    (Moves.orPanic (h _)).bind fun _ => (Moves.eq hAB _ _ _ _).bind fun _ => Moves.ensure _ _

theorem Moves.rounds (proof : ZkProof F G) (k j : Nat) (a : G) : Moves A B (zkRounds ch' proof k j a) (zkRounds ch proof k j a) := by
  induction k generalizing j a with
  | zero => exact Moves.pure _
  | succ k ih =>
    exact Moves.same.bind fun _ => Moves.same.bind fun _ => (Moves.say _).bind fun _ =>
      (Moves.challenge hAB _).bind fun _ => (Moves.say _).bind fun _ => (Moves.say _).bind fun _ => (ih _ _).bind fun _ =>
      Moves.pure _

omit hAB in
theorem Moves.deltas (ds : List G) : Moves A B (sayDeltas ds : Vf F G Unit) (sayDeltas ds) := by
  induction ds with
  | nil => exact Moves.pure _
  | cons d ds ih => exact (Moves.say _).bind fun _ => ih

theorem Moves.layer (params : Params G) (proof : ZkProof F G) (a : G) (u0 u1 : F) (qa ql qr : List F) (gates : List Gate)
    (n ng : Nat) : Moves A B (zkVerify ch' params proof a u0 u1 qa ql qr gates n ng)
      (zkVerify ch params proof a u0 u1 qa ql qr gates n ng) :=
  (Moves.rounds hAB _ _ _ _).bind fun _ => Moves.same.bind fun _ =>
    ((Moves.product hAB _ _ _ _ _).bind fun _ => (Moves.ensure _ _).bind fun _ => (Moves.deltas _).bind fun _ =>
      (Moves.challenges hAB _ _).bind fun _ => (Moves.say _).bind fun _ => (Moves.challenge hAB _).bind fun _ =>
      Moves.same.bind fun _ => (Moves.ensure _ _).bind fun _ => (Moves.ensure _ _).bind fun _ =>
      Moves.ensure _ _).bind fun _ => Moves.pure _

theorem Moves.layers (params : Params G) (proofs : List (ZkProof F G)) (c : Circuit) (n k d : Nat) (st : St F G) :
    Moves A B (layersChecked ch' params proofs c n k d st) (layersChecked ch params proofs c n k d st) := by
  induction k generalizing d st with
  | zero => exact Moves.pure _
  | succ k ih =>
    refine Moves.same.bind fun _ => Moves.same.bind fun _ => Moves.same.bind fun _ =>
      (Moves.ensure _ _).bind fun _ => (Moves.layer hAB _ _ _ _ _ _ _ _ _ _ _).bind fun _ => ?_
    by_cases h : d < c.depth - 2
    · simp only [h, if_true]
      exact (Moves.challenge hAB _).bind fun _ => (Moves.challenge hAB _).bind fun _ => (Moves.say _).bind fun _ => ih _ _
    · simp only [h, if_false]
      exact ih _ _

theorem Moves.outputs (outputs : List (List F)) : Moves A B (evalOutputs ch' outputs) (evalOutputs ch outputs) :=
  Moves.same.bind fun _ => (Moves.challenges hAB _ _).bind fun _ => (Moves.ensure _ _).bind fun _ =>
      (Moves.challenges hAB _ _).bind fun _ => Moves.pure _

end moves

/-- The messages with the inputs and outputs of the instances. -/
def instanceMsgs (is os : List (List F)) : Transcript F G :=
  (is.zip os).flatMap fun p => [.frs "input_i" p.1, .frs "output_i" p.2]

theorem sayInstances_eq (os : List (List F)) : ∀ (is : List (List F)) (tr : Transcript F G), os.length ≤ is.length →
    (sayInstances is os : Vf F G Unit) tr = .ok ((), tr ++ instanceMsgs is os) := by
  induction os with
  | nil => intro is tr _; cases is <;> simp [sayInstances, instanceMsgs, Pure.pure, StateT.pure, Except.pure]
  | cons o os ih =>
    intro is tr h
    cases is with
    | nil => simp at h
    | cons i is =>
      rw [sayInstances]
      refine bind_run (tr1 := tr ++ [.frs "input_i" i]) rfl (bind_run (tr1 := tr ++ [.frs "input_i" i] ++ [.frs "output_i" o]) rfl ?_)
      rw [ih is _ (by simpa using h)]
      simp [instanceMsgs]

theorem evalValue_pad (v : List F) (m : Nat) (pt : List F) (a : F) (h : evalValue (v ++ List.replicate m 0) pt = some a) :
    evalValue v pt = some a := by
  have hl : (v ++ List.replicate m 0).length ≤ 2 ^ pt.length := by
    by_contra hc
    unfold evalValue at h
    rw [if_neg (by rw [evalEq_length]; exact hc)] at h
    cases h
  rw [evalValue_eq _ _ hl, mle_padded] at h
  rw [evalValue_eq _ _ (by simp at hl; omega), h]

/-- For every honest run as in `C86_checked` and all other public inputs that, written one after the other, each filled up to
a power of two, give the same vector up to trailing zeros: for every hash function there is a proof that the verifier accepts
for these other public inputs and the outputs of the honest run, also when it compares the claims (`C53_sound_partial`). -/
theorem C107_swap (h2 : (2 : F) ≠ 0) (h3 : (3 : F) ≠ 0) (ch : Oracle F G) (hch : ∀ t, ch (t ++ [.chal "x"]) ≠ 0)
    (num : Nat) (r : ParamRand G) (ni na : Nat) (raw : List (List (Nat × Nat × Nat))) (c : Circuit)
    (hc : Circuit.new ni na raw = .ok c) (hraw : raw ≠ []) (k : Nat) (hk : k = Nat.clog 2 (max na ni))
    (ht : Tapers (2 * 2 ^ k) raw) (ps : List (List F × List F)) (logN : Nat) (hN : 1 ≤ logN) (hn : ps.length = 2 ^ logN)
    (hlen : ∀ p ∈ ps, p.1.length ≤ ni ∧ p.2.length = p.1.length ∧ p.2.length ≤ na ∧ Nat.clog 2 p.1.length = k)
    (hnum : logN + k ≤ num) (circuitHash paramHash : F) (rand : HyraxRand F)
    (hw : rand.witness.length = 2 ^ ((logN + k) / 2)) (hb0 : logN + k - (logN + k) / 2 ≤ rand.in0.bullet.length)
    (hb1 : logN + k - (logN + k) / 2 ≤ rand.in1.bullet.length) (tr : Transcript F G)
    (inputs : List (List F)) (hil : inputs.length = 2 ^ logN) (z : Nat)
    (hsame : inputVec (ps.map Prod.fst) = inputVec inputs ++ List.replicate z 0) :
    ∃ proof tr', verifyChecked ch (paramsNew num r) proof (ps.map (honestOutputs k raw)) inputs c circuitHash paramHash tr =
        .ok ((), tr') := by
  obtain ⟨outputs, ho⟩ : ∃ outputs, outputs = ps.map (honestOutputs k raw) := ⟨_, rfl⟩
  have hol : outputs.length = 2 ^ logN := by rw [ho, List.length_map, hn]
  obtain ⟨base, hbase⟩ : ∃ base : Transcript F G, base = tr ++ [.fr "circuit_to_hash" circuitHash] ++ [.fr "param_to_hash" paramHash] :=
    ⟨_, rfl⟩
  obtain ⟨A, hA⟩ : ∃ A : Transcript F G, A = base ++ instanceMsgs (ps.map Prod.fst) outputs := ⟨_, rfl⟩
  obtain ⟨B, hB⟩ : ∃ B : Transcript F G, B = base ++ instanceMsgs inputs outputs := ⟨_, rfl⟩
  obtain ⟨ch', hch'⟩ : ∃ ch' : Oracle F G, ch' = fun t => if A.length < t.length then ch (B ++ t.drop A.length) else 1 := ⟨_, rfl⟩
  have hAB : ∀ s l, ch' (A ++ s ++ [.chal l]) = ch (B ++ s ++ [.chal l]) := by
    intro s l
    rw [hch']
    simp only [List.length_append, List.length_singleton]
    rw [if_pos (by omega), List.append_assoc A, List.drop_left, List.append_assoc]
  have hnz : ∀ t, ch' (t ++ [.chal "x"]) ≠ 0 := by
    intro t
    rw [hch']
    simp only [List.length_append, List.length_singleton]
    split_ifs with h
    · rw [List.drop_append_of_le_length (by omega), ← List.append_assoc]
      exact hch _
    · exact one_ne_zero
  obtain ⟨proof, tr', -, hv⟩ := C86_checked h2 h3 ch' hnz num r ni na raw c hc hraw k hk ht ps logN hN hn hlen hnum circuitHash
    paramHash rand hw hb0 hb1 tr
  rw [← ho] at hv ⊢
  unfold verifyChecked at hv
  obtain ⟨_, ta, g1, hv⟩ := bind_inv hv
  obtain ⟨_, tb, g2, hv⟩ := bind_inv hv
  obtain ⟨_, tb1, g3, hv⟩ := bind_inv hv
  obtain ⟨g3', e3⟩ := ensure_inv g3
  obtain ⟨_, tb2, g4, hv⟩ := bind_inv hv
  obtain ⟨g4', e4⟩ := ensure_inv g4
  obtain ⟨_, tc, g5, hv⟩ := bind_inv hv
  have e1 := say_inv g1
  have e2 := say_inv g2
  have hb2 : tb2 = base := by rw [← e4, ← e3, ← e2, ← e1, hbase]
  rw [hb2, sayInstances_eq outputs _ _ (by simp [hol, hn]), ← hA] at g5
  have hcA : A = tc := congrArg Prod.snd (Except.ok.inj g5)
  subst hcA
  have hins : ∀ pt a, evalValue (inputVec ((ps.map Prod.fst).take outputs.length)) pt = some a →
      evalValue (inputVec (inputs.take outputs.length)) pt = some a := by
    intro pt a h
    rw [List.take_of_length_le (by rw [List.length_map, hn, hol]), hsame] at h
    rw [List.take_of_length_le (by rw [hil, hol])]
    exact evalValue_pad _ _ _ _ h
  have key := ((Moves.say (A := A) (B := B) (.pts "comm_witness" proof.witness)).bind fun _ => (Moves.outputs hAB outputs).bind fun x =>
    (Moves.say (.pt "comm_claim_a0" (commitVec (paramsNew num r).gen1.generators [x.1] (paramsNew num r).gen1.h (0 : F)))).bind fun _ =>
    (Moves.ensure .panic (1 ≤ c.depth)).bind fun _ => (Moves.layers hAB (paramsNew num r) proof.proofs c outputs.length (c.depth - 1) 0
      ⟨commitVec (paramsNew num r).gen1.generators [x.1] (paramsNew num r).gen1.h (0 : F),
        commitVec (paramsNew num r).gen1.generators [x.1] (paramsNew num r).gen1.h (0 : F),
        commitVec (paramsNew num r).gen1.generators [x.1] (paramsNew num r).gen1.h (0 : F), 1, 0, x.2.1, x.2.2, x.2.2⟩).bind fun st =>
    (Moves.input hAB (paramsNew num r) proof.witness proof.prod0 proof.y0 proof.eq0 _ _ st.qa st.ql st.x hins).bind fun _ =>
      Moves.input hAB (paramsNew num r) proof.witness proof.prod1 proof.y1 proof.eq1 _ _ st.qa st.qr st.y hins) [] () tr' (by
        rw [List.append_nil]; exact hv)
  obtain ⟨s, -, hk⟩ := key
  rw [List.append_nil] at hk
  refine ⟨proof, B ++ s, ?_⟩
  unfold verifyChecked
  refine bind_run (tr1 := tr ++ [.fr "circuit_to_hash" circuitHash]) rfl (bind_run (tr1 := base) (by rw [hbase]; rfl) ?_)
  refine bind_run (a := ()) (tr1 := base) (by rw [g3']; rfl) (bind_run (a := ()) (tr1 := base) (by rw [g4']; rfl) ?_)
  refine bind_run (a := ()) (tr1 := B) (by rw [hB]; exact sayInstances_eq outputs inputs base (by omega)) ?_
  exact hk

/-! ### C107 -/

/-- C107: the value that the verifier takes for the public inputs (`inputVerify`, at the point `qa ++ qs` where `qa` selects the
instance and `qs` the position in the half of the input layer that holds public inputs) is that of the public inputs of the
instances, each in the input layer of its instance. -/
def C107_statement (F : Type) [Field F] : Prop :=
  ∀ (ni na logN : Nat) (inputs : List (List F)) (qa qs : List F), inputs.length = 2 ^ logN → (∀ v ∈ inputs, v.length ≤ ni) →
    qa.length = logN → qs.length = Nat.clog 2 (max na ni) →
      evalValue (inputVec inputs) (qa ++ qs) = some (mle (inputs.map fun v => mle v qs) qa)

theorem inputVec_short (ni na logN : Nat) (inputs : List (List F)) (hl : inputs.length = 2 ^ logN) (hi : ∀ v ∈ inputs, v.length ≤ ni) :
    (inputVec inputs).length ≤ 2 ^ (logN + Nat.clog 2 (max na ni)) := by
  rw [pow_add, ← hl]
  refine inputVec_length inputs _ fun v hv => ?_
  exact Nat.pow_le_pow_right (by decide) (Nat.clog_mono_right 2 ((hi v hv).trans (le_max_right _ _)))

/-- The claim holds when the public inputs of every instance, filled up to a power of two, fill their half of the input layer.
Missing: shorter ones, for which the claim is false. -/
theorem C107_partial (ni na logN : Nat) (inputs : List (List F)) (qa qs : List F) (hl : inputs.length = 2 ^ logN)
    (hi : ∀ v ∈ inputs, v.length ≤ ni) (hqa : qa.length = logN) (hqs : qs.length = Nat.clog 2 (max na ni))
    (hfull : ∀ v ∈ inputs, Nat.clog 2 v.length = Nat.clog 2 (max na ni)) :
    evalValue (inputVec inputs) (qa ++ qs) = some (mle (inputs.map fun v => mle v qs) qa) := by
  rw [evalValue_eq _ _ (by rw [List.length_append, hqa, hqs]; exact inputVec_short ni na logN inputs hl hi),
    mle_inputVec inputs qa qs fun v hv => by rw [padTo, hfull v hv, hqs]]

example : evalValue (inputVec ([[3, 4, 5], [4, 5, 1]] : List (List F17))) ([2] ++ [6, 7]) =
    some (mle ([[3, 4, 5], [4, 5, 1]].map fun v => mle v [6, 7]) [2]) := by
  have h3 : Nat.clog 2 3 = 2 := by decide
  have hm : Nat.clog 2 (max 2 3) = 2 := by decide
  exact C107_partial 3 2 1 [[3, 4, 5], [4, 5, 1]] [2] [6, 7] rfl (by simp) rfl (by rw [hm]; rfl) (by simp [h3])

/-- For one public input and two witness values, the input of the second instance is taken for a second input of the first. -/
theorem C107_violated (F : Type) [Field F] : ¬C107_statement F := by
  intro h
  have hm : Nat.clog 2 (max 2 1) = 1 := by decide
  have h1 : padTo 1 = 1 := by decide
  have := h 1 2 1 [[0], [1]] [0] [1] rfl (by simp) rfl (by rw [hm]; rfl)
  rw [evalValue_eq _ _ (by simp [inputVec, h1])] at this
  have := Option.some.inj this
  simp [inputVec, h1, mle, Finset.sum_range_succ, Finset.prod_range_succ, eqWeight, Nat.testBit] at this

/-- A circuit with one public input that squares it, for up to two witness values. -/
abbrev squareRaw : List (List (Nat × Nat × Nat)) := [[(1, 2, 2)]]

/-- The output of the circuit on the public input `y` is its square, for every witness. -/
theorem square_output (y : F) (w : List F) (hw : w.length ≤ 2) : honestOutputs 1 squareRaw ([y], w) = [y * y] := by
  rcases w with _ | ⟨a, _ | ⟨b, _ | ⟨c, w⟩⟩⟩
  · simp [honestOutputs, topValues, layout, circuitValues, squareRaw, gateValue]
  · simp [honestOutputs, topValues, layout, circuitValues, squareRaw, gateValue]
  · simp [honestOutputs, topValues, layout, circuitValues, squareRaw, gateValue]
  · simp at hw

/-- Whatever the hash function: the verifier accepts that the squares of `x` and `y` are `x * x` and `0`. It does so as well when
it compares the claims of the layers (`verifyChecked`, which is sound otherwise, `C53_sound_partial`). -/
theorem C107_accepts (h2 : (2 : F) ≠ 0) (h3 : (3 : F) ≠ 0) (ch : Oracle F G) (hch : ∀ t, ch (t ++ [.chal "x"]) ≠ 0)
    (num : Nat) (hnum : 2 ≤ num) (r : ParamRand G) (x y circuitHash paramHash : F) (tr : Transcript F G) :
    ∃ c, Circuit.new 1 2 squareRaw = .ok c ∧ ∃ proof tr',
      verifyChecked ch (paramsNew num r) proof [[x * x], [0]] [[x], [y]] c circuitHash paramHash tr = .ok ((), tr') ∧
      verify ch (paramsNew num r) proof [[x * x], [0]] [[x], [y]] c circuitHash paramHash tr = .ok ((), tr') := by
  have hm : Nat.clog 2 (max 2 1) = 1 := by decide
  have hm' : Nat.clog 2 (max 2 2) = 1 := by decide
  have hk : Nat.clog 2 2 = 1 := by decide
  have h1 : padTo 1 = 1 := by decide
  have hp2 : padTo 2 = 2 := by decide
  obtain ⟨c, hc⟩ := (C55_accepted 1 2 squareRaw).2 (by rw [hm]; simp [LegalLayers, Legal])
  refine ⟨c, hc, ?_⟩
  have hc' : Circuit.new 2 2 squareRaw = .ok c := hc
  obtain ⟨proof, tr', hv⟩ := C107_swap (F := F) (G := G) h2 h3 ch hch num r 2 2 squareRaw c hc' (by simp) 1 hm'.symm
    ⟨⟨0, rfl⟩, Or.inr (by simp), trivial⟩ [([x, y], [0, 0]), ([0, 0], [0, 0])] 1 le_rfl rfl (by simp [hk]) hnum circuitHash paramHash
    ⟨[0, 0], fun _ => ⟨0, 0, 0, 0, 0, 0, 0, 0, 0, 0, 0, 0, 0⟩, ⟨0, 0, 0, 0, [(0, 0)], 0⟩, ⟨0, 0, 0, 0, [(0, 0)], 0⟩⟩ rfl (by simp)
    (by simp) tr [[x], [y]] rfl 2 (by simp [inputVec, h1, hp2])
  have ho : [([x, y], [0, 0]), (([0, 0] : List F), ([0, 0] : List F))].map (honestOutputs 1 squareRaw) = [[x * x], [0]] := by
    simp [honestOutputs, topValues, layout, circuitValues, squareRaw, gateValue]
  rw [ho] at hv
  exact ⟨proof, tr', hv, verifyChecked_imp _ _ _ _ _ _ _ _ _ _ hv⟩

example : ∃ c, Circuit.new 1 2 squareRaw = .ok c ∧ ∃ proof tr',
    verifyChecked exChal (paramsNew 2 exPoints) proof [[9], [0]] [[3], [4]] c 1 2 [] = .ok ((), tr') ∧
    verify exChal (paramsNew 2 exPoints) proof [[9], [0]] [[3], [4]] c 1 2 [] = .ok ((), tr') :=
  C107_accepts (F := F17) (G := F17) (by decide) (by decide) exChal (fun t => exChal_ne _) 2 le_rfl exPoints 3 4 1 2 []

example (w : List F17) (hw : w.length ≤ 2) : honestOutputs 1 squareRaw ([4], w) ≠ [0] := by
  rw [square_output 4 w hw]
  decide

/-- `C107_swap` in a larger case: two public inputs in each of two instances fill the inputs of the first. -/
example : ∃ c, Circuit.new 4 4 [[(1, 4, 5), (0, 6, 7)]] = .ok c ∧ ∃ proof tr',
    verifyChecked exChal (paramsNew 3 exPoints) proof [[12, 11], [0, 0]] [[3, 4], [5, 6]] c 1 2 [] = .ok ((), tr') := by
  have hk : Nat.clog 2 (max 4 4) = 2 := by decide
  have hk' : Nat.clog 2 4 = 2 := by decide
  have hp2 : padTo 2 = 2 := by decide
  have hp4 : padTo 4 = 4 := by decide
  obtain ⟨c, hc⟩ := (C55_accepted 4 4 [[(1, 4, 5), (0, 6, 7)]]).2 (by rw [hk]; simp [LegalLayers, Legal])
  refine ⟨c, hc, ?_⟩
  exact C107_swap (F := F17) (G := F17) (by decide) (by decide) exChal (fun t => exChal_ne _) 3 exPoints 4 4 _ c hc (by simp) 2
    hk.symm ⟨⟨1, rfl⟩, Or.inr (by simp), trivial⟩ [([3, 4, 5, 6], [1, 1, 1, 1]), ([0, 0, 0, 0], [2, 2, 2, 2])] 1 le_rfl rfl
    (by simp [hk']) (by simp) 1 2 (exRand 2) (by simp [exRand]) (by simp [exRand]) (by simp [exRand]) [] [[3, 4], [5, 6]] rfl 4
    (by simp [inputVec, hp2, hp4])

end Zkp.Hx
