/- C80: what the SNARK verifier of Spartan guarantees when the lists in the proof have the lengths that the code does not
check. -/
import Verif.Proof.SnarkSparse
import Verif.Proof.SnarkCausal
import Verif.Props.SpartanSound
import Verif.Props.SpartanSnarkComplete

namespace Zkp.Spartan

open Zkp.Ml Zkp.Sc
open Zkp.Cp (bind_inv say_inv challenge_inv ensure_inv orPanic_inv pure_inv)

set_option linter.unusedSectionVars false
set_option linter.unusedSimpArgs false

variable {F : Type} [Field F] {G : Type} [AddCommGroup G] [Module F G] [DecidableEq F] [DecidableEq G]

/-- The messages between the two arguments. -/
def between (evals : F × F × F) (commit : EncodeCommit G) : Transcript F G :=
  [.fr "Ar_claim" evals.1, .fr "Br_claim" evals.2.1, .fr "Cr_claim" evals.2.2, .u64 "n" commit.n, .u64 "m" commit.m,
    .pts "encode_mem_commit" commit.mem, .pts "encode_ops_commit" commit.ops]

/-- The verifier accepts, and the transcript at its end is `tr`. -/
def AcceptsSnark (ch : Oracle F G) (satParams : SatParams G) (params : EvalsParams G) (s : Inst F) (inputs : List F)
    (proof : SnarkProof F G) (commit : EncodeCommit G) (r1csHash paramsHash encodeHash : F) (tr : Transcript F G) : Prop :=
  ∃ rx ry tr1, satVerify ch satParams s inputs proof.sat proof.evals (snarkStart r1csHash paramsHash encodeHash) = .ok ((rx, ry), tr1) ∧
    sparseEvalVerify ch params proof.proof commit rx ry proof.evals (tr1 ++ between proof.evals commit) = .ok ((), tr)

/-- Every accepting run of the verifier has such a transcript. -/
theorem verifySnark_accepts (ch : Oracle F G) (satParams : SatParams G) (params : EvalsParams G) (s : Inst F) (inputs : List F)
    (proof : SnarkProof F G) (commit : EncodeCommit G) (r1csHash paramsHash encodeHash : F) :
    verifySnark ch satParams params s inputs proof commit r1csHash paramsHash encodeHash = .ok () ↔
      ∃ tr, AcceptsSnark ch satParams params s inputs proof commit r1csHash paramsHash encodeHash tr := by
  unfold verifySnark AcceptsSnark
  constructor
  · intro h
    simp only [] at h
    split at h
    · next out h' =>
      obtain ⟨⟨rx, ry⟩, tr1, h1, h'⟩ := bind_inv h'
      refine ⟨out.2, rx, ry, tr1, h1, ?_⟩
      obtain ⟨_, _, e, h'⟩ := bind_inv h'
      obtain rfl := say_inv e
      obtain ⟨_, _, e, h'⟩ := bind_inv h'
      obtain rfl := say_inv e
      obtain ⟨_, _, e, h'⟩ := bind_inv h'
      obtain rfl := say_inv e
      obtain ⟨_, _, e, h'⟩ := bind_inv h'
      obtain rfl := say_inv e
      obtain ⟨_, _, e, h'⟩ := bind_inv h'
      obtain rfl := say_inv e
      obtain ⟨_, _, e, h'⟩ := bind_inv h'
      obtain rfl := say_inv e
      obtain ⟨_, _, e, h'⟩ := bind_inv h'
      obtain rfl := say_inv e
      simpa [between, List.append_assoc] using h'
    · cases h
  · rintro ⟨tr, rx, ry, tr1, h1, h2⟩
    have : (do
        let (rx, ry) ← satVerify ch satParams s inputs proof.sat proof.evals
        say (.fr "Ar_claim" proof.evals.1)
        say (.fr "Br_claim" proof.evals.2.1)
        say (.fr "Cr_claim" proof.evals.2.2)
        say (.u64 "n" commit.n)
        say (.u64 "m" commit.m)
        say (.pts "encode_mem_commit" commit.mem)
        say (.pts "encode_ops_commit" commit.ops)
        sparseEvalVerify ch params proof.proof commit rx ry proof.evals : Vf F G Unit)
        (snarkStart r1csHash paramsHash encodeHash) = .ok ((), tr) := by
      rw [bind_ok h1]
      have h3 : sparseEvalVerify ch params proof.proof commit rx ry proof.evals (tr1 ++ [.fr "Ar_claim" proof.evals.1] ++
          [.fr "Br_claim" proof.evals.2.1] ++ [.fr "Cr_claim" proof.evals.2.2] ++ [.u64 "n" commit.n] ++ [.u64 "m" commit.m] ++
          [.pts "encode_mem_commit" commit.mem] ++ [.pts "encode_ops_commit" commit.ops]) = .ok ((), tr) := by
        simpa [between, List.append_assoc] using h2
      exact h3
    simp only [snarkStart] at this
    simp only [this]

/-- The lengths of the lists in a proof: the four lists of claimed values have three elements, the polynomials in the rounds
have degree at most `d`, and the inner product arguments have the given numbers of rounds. -/
structure Shaped (d k k1 k2 k3 : Nat) (proof : SnarkProof F G) : Prop where
  sat : proof.sat.dot.L.length = k
  derefs : proof.proof.hash.derefs.L.length = k1
  ops : proof.proof.hash.ops.L.length = k2
  mem : proof.proof.hash.mem.L.length = k3
  rowAddr : proof.proof.hash.row.1.length = 3
  rowTs : proof.proof.hash.row.2.1.length = 3
  colAddr : proof.proof.hash.col.1.length = 3
  colTs : proof.proof.hash.col.2.1.length = 3
  polys : ∀ l ∈ proof.proof.layer.ops.layers ++ proof.proof.layer.memory.layers, ∀ p ∈ l.polys, p.length ≤ d + 1

/-- The bad challenges of the two arguments. -/
noncomputable def badSnark (s : Inst F) (inputs : List F) (d k k1 k2 k3 : Nat) (φ φ3 φ4 φd φo φm : Nat → G →ₗ[F] F)
    (S : Submodule F G) (enc : EncodeMemory F) : Transcript F G → List F → Finset F :=
  seq (5 * Nat.clog 2 s.numConstraints + 4 * (Nat.clog 2 s.t + 1) + k + 8)
    (fun a vs => badNizk s inputs k φ φ3 φ4 S (firstPts a) (said a) vs) fun _ q a' b' =>
  badEval d φd φo φm k1 k2 k3 enc (Nat.clog 2 s.entries) s.memVars
    (equalizeLength (scPoints ((q.drop (Nat.clog 2 s.numConstraints)).take (4 * Nat.clog 2 s.numConstraints)))
      (scPoints ((q.drop (5 * Nat.clog 2 s.numConstraints + 6)).take (4 * (Nat.clog 2 s.t + 1))))).1
    (equalizeLength (scPoints ((q.drop (Nat.clog 2 s.numConstraints)).take (4 * Nat.clog 2 s.numConstraints)))
      (scPoints ((q.drop (5 * Nat.clog 2 s.numConstraints + 6)).take (4 * (Nat.clog 2 s.t + 1))))).2 (a'.drop 7) b'

/-- The number of bad values of each challenge. -/
def snarkDegree (s : Inst F) (d : Nat) : Nat := d + 1 + 16 * (2 ^ s.memVars + 3 * 2 ^ Nat.clog 2 s.entries) ^ 2

/-- The number of challenges. -/
def snarkNum (s : Inst F) (k k1 k2 k3 : Nat) : Nat :=
  5 * Nat.clog 2 s.numConstraints + 4 * (Nat.clog 2 s.t + 1) + k + 8 + evalNum (Nat.clog 2 s.entries) s.memVars k1 k2 k3

set_option maxHeartbeats 1600000 in
/-- There is a function that reads the witness from the commitment, such that: if the verifier accepts a proof, the witness
that was read satisfies the instance with the given public inputs, or some challenge lies in a set of bounded size, fixed by
the transcript before it. The number of challenges is fixed.

Partial: that the four lists of claimed addresses and timestamps have three elements each is a hypothesis (`Shaped`); the code
does not check it, and without it the claim is false (`C80_violated`). The degrees of the polynomials in the rounds are not
checked either, the bound depends on them. No public input that is zero may come before one that is not (C45), and the characteristic must be larger
than the memories. The generators must have no linear relation; for a real group, where the discrete logarithms exist, this is
the algebraic form of the binding assumption. -/
theorem C80_partial (satParams : SatParams G) (hp : GoodParams F satParams) (params : EvalsParams G)
    (hdp : GoodPc F params.derefs) (hop : GoodPc F params.ops) (hmp : GoodPc F params.mem) (s : Inst F) (hf : s.Fits)
    (hn : 2 ≤ s.entries)
    (hgo : 2 ^ (4 + Nat.clog 2 s.entries - (4 + Nat.clog 2 s.entries) / 2) ≤ params.ops.genN.generators.length)
    (hgm : 2 ^ (1 + s.memVars - (1 + s.memVars) / 2) ≤ params.mem.genN.generators.length)
    (hchar : ∀ j : Nat, 0 < j → j ≤ 2 ^ s.memVars + 3 * 2 ^ Nat.clog 2 s.entries → (j : F) ≠ 0)
    (enc : EncodeMemory F) (commit : EncodeCommit G) (tr0 tr0' : Transcript F G)
    (henc : encode params s tr0 = .ok ((enc, commit), tr0')) (inputs : List F) (hz : ZerosLast inputs)
    (d : Nat) (hd : 3 ≤ d) (k k1 k2 k3 : Nat) :
    ∃ (ext : List G → Nat → F) (bad : Transcript F G → List F → Finset F), (∀ t vs, (bad t vs).card ≤ snarkDegree s d) ∧
      ∀ (ch : Oracle F G) (proof : SnarkProof F G) (r1csHash paramsHash encodeHash : F) (tr : Transcript F G),
        Shaped d k k1 k2 k3 proof →
        AcceptsSnark ch satParams params s inputs proof commit r1csHash paramsHash encodeHash tr →
        numChal tr = snarkNum s k k1 k2 k3 ∧
        (s.Sat (assign (ext proof.sat.commitWitness) inputs) ∨ Hit ch bad (snarkStart r1csHash paramsHash encodeHash) tr) := by
  obtain ⟨u, hu⟩ := List.length_eq_one_iff.1 hp.one
  obtain ⟨φ, hφ⟩ := hp.indep.reads
  obtain ⟨φ3, hφ3⟩ := hp.indep3.reads
  obtain ⟨φ4, hφ4⟩ := hp.indep4.reads
  rw [hu] at hφ
  obtain ⟨ud, hud⟩ := List.length_eq_one_iff.1 hdp.one
  obtain ⟨uo, huo⟩ := List.length_eq_one_iff.1 hop.one
  obtain ⟨um, hum⟩ := List.length_eq_one_iff.1 hmp.one
  obtain ⟨φd, hφd⟩ := hdp.indep.reads
  obtain ⟨φo, hφo⟩ := hop.indep.reads
  obtain ⟨φm, hφm⟩ := hmp.indep.reads
  rw [hud] at hφd
  rw [huo] at hφo
  rw [hum] at hφm
  obtain ⟨he, -⟩ := encode_ok params s enc commit _ _ henc
  have hk : 0 < Nat.clog 2 s.entries := Nat.clog_pos (by norm_num) hn
  have hlm : 0 < s.memVars := lt_of_lt_of_le (Nat.succ_pos _) (le_max_right _ _)
  refine ⟨fun com i => (zTab (wit φ (Nat.clog 2 s.t) com) inputs (Nat.clog 2 s.t)).getD i 0,
    fun t vs => badSnark s inputs d k k1 k2 k3 φ φ3 φ4 φd φo φm (Submodule.span F {u, satParams.gen1.h}) enc (t.drop 3) vs, ?_, ?_⟩
  · intro t vs
    unfold badSnark snarkDegree
    refine seq_card (fun _ _ => (badNizk_card _ _ _ _ _ _ _ _ _ _).trans ?_)
      (fun _ _ _ _ => badEval_card d hd _ _ _ _ _ _ _ _ _ he.rowA he.colA _ _ _ _) _ _
    have : 0 < (2 ^ s.memVars + 3 * 2 ^ Nat.clog 2 s.entries) ^ 2 := by positivity
    omega
  intro ch proof r1csHash paramsHash encodeHash tr hs hacc
  obtain ⟨rx, ry, tr1, h1, h2⟩ := hacc
  obtain ⟨⟨p, q, hq, hql, hrx, hry, hrxl, hryl, hlast⟩, hsat⟩ := sat_sound satParams hp s hf inputs hz k u hu φ φ3 φ4 hφ hφ3 hφ4 ch
    proof.sat hs.sat rx ry proof.evals.1 proof.evals.2.1 proof.evals.2.2 _ _ h1
  obtain ⟨m1, sg⟩ := Seg.of_at hq hlast (by rw [← List.length_pos_iff, hql]; omega)
  rw [hql, show 5 * Nat.clog 2 s.numConstraints + 4 * (Nat.clog 2 s.t + 1) + k + 8 =
    5 * Nat.clog 2 s.numConstraints + 4 * (Nat.clog 2 s.t + 1) + k + 7 + 1 from rfl] at sg
  have hpl : ∀ x ∈ ([.frs "r1cs_input" (1 :: inputs ++ List.replicate (s.t - inputs.length - 1) 0)] ++
      [.pts "poly_commitment" proof.sat.commitWitness] : Transcript F G), Plain x := by simp [Plain]
  rw [List.append_assoc] at sg
  have sg := sg.shift hpl
  have hmax : max rx.length ry.length = s.memVars := by rw [hrxl, hryl]; rfl
  obtain ⟨a, b, se, hev⟩ := sparse_sound hd ch params enc commit _ _ hk hlm he ud uo um hud huo hum φd φo φm hφd hφo hφm hgo hgm hchar
    proof.proof k1 k2 k3 hs.derefs hs.ops hs.mem ⟨hs.rowAddr, hs.rowTs, hs.colAddr, hs.colTs⟩ hs.polys rx ry hmax proof.evals _ _ h2
  have hpl2 : ∀ x ∈ between proof.evals commit, Plain x := by simp [between, Plain]
  refine ⟨?_, ?_⟩
  · rw [← drawn_length ch, se.chs, drawn_plain ch _ _ hpl2, sg.chs, List.length_append, List.length_append, sg.len, se.len]
    exact congrArg (· + _) (Nat.zero_add _)
  have key : HitT ch (badSnark s inputs d k k1 k2 k3 φ φ3 φ4 φd φo φm (Submodule.span F {u, satParams.gen1.h}) enc)
      (snarkStart r1csHash paramsHash encodeHash) tr →
      Hit ch (fun t vs => badSnark s inputs d k k1 k2 k3 φ φ3 φ4 φd φo φm (Submodule.span F {u, satParams.gen1.h}) enc (t.drop 3) vs)
        (snarkStart r1csHash paramsHash encodeHash) tr := fun h => h.hit rfl
  have pre1 : tr1 <+: tr := (List.prefix_append _ _).trans se.pre
  rcases hev with hit | hev
  · right
    apply key
    unfold badSnark
    refine HitT.second sg ?_
    rw [← hrx, ← hry]
    exact hit.shift hpl2 fun a b => by simp [between]
  · obtain ⟨v1, e1⟩ : ∃ v, evaluateMle s.a rx ry = some v :=
      ⟨_, C46_evaluateMle s.a rx ry (Nat.clog 2 s.t) hryl (by rw [hrxl]; exact hf.1)⟩
    obtain ⟨v2, e2⟩ : ∃ v, evaluateMle s.b rx ry = some v :=
      ⟨_, C46_evaluateMle s.b rx ry (Nat.clog 2 s.t) hryl (by rw [hrxl]; exact hf.2.1)⟩
    obtain ⟨v3, e3⟩ : ∃ v, evaluateMle s.c rx ry = some v :=
      ⟨_, C46_evaluateMle s.c rx ry (Nat.clog 2 s.t) hryl (by rw [hrxl]; exact hf.2.2)⟩
    have := encode_dotp params s hf enc commit _ _ henc rx ry hrxl hryl _ _ _ e1 e2 e3
    rw [← hev] at this
    obtain ⟨f1, f2, f3⟩ : _ ∧ _ ∧ _ := by simpa using this
    rcases hsat (by rw [e1, f1]) (by rw [e2, f2]) (by rw [e3, f3]) with h | h
    · exact Or.inl h
    · right
      apply key
      unfold badSnark
      have h' := HitT.of_from h
      rw [List.append_assoc] at h'
      refine HitT.first (HitT.shift h' hpl fun a b => ?_) sg pre1
      exact Finset.Subset.refl _

/-- Of the `|F| ^ m` sequences of `m` challenges at most `D · m · |F| ^ (m - 1)` make the verifier accept an instance that cannot
be satisfied with the given public inputs, whatever the prover does.

Partial: as `C80_partial`. -/
theorem C80_count_partial [Fintype F] (satParams : SatParams G) (hp : GoodParams F satParams) (params : EvalsParams G)
    (hdp : GoodPc F params.derefs) (hop : GoodPc F params.ops) (hmp : GoodPc F params.mem) (s : Inst F) (hf : s.Fits)
    (hn : 2 ≤ s.entries)
    (hgo : 2 ^ (4 + Nat.clog 2 s.entries - (4 + Nat.clog 2 s.entries) / 2) ≤ params.ops.genN.generators.length)
    (hgm : 2 ^ (1 + s.memVars - (1 + s.memVars) / 2) ≤ params.mem.genN.generators.length)
    (hchar : ∀ j : Nat, 0 < j → j ≤ 2 ^ s.memVars + 3 * 2 ^ Nat.clog 2 s.entries → (j : F) ≠ 0)
    (enc : EncodeMemory F) (commit : EncodeCommit G) (tr0 tr0' : Transcript F G)
    (henc : encode params s tr0 = .ok ((enc, commit), tr0')) (inputs : List F) (hz : ZerosLast inputs)
    (d : Nat) (hd : 3 ≤ d) (k k1 k2 k3 : Nat) (hunsat : ¬ ∃ aux, s.Sat (assign aux inputs))
    (r1csHash paramsHash encodeHash : F) (m : Nat) (hm : m = snarkNum s k k1 k2 k3)
    (prover : (Fin m → F) → SnarkProof F G) (hs : ∀ f, Shaped d k k1 k2 k3 (prover f))
    (hcausal : ∀ f g tr tr',
      AcceptsSnark (tape (List.ofFn f)) satParams params s inputs (prover f) commit r1csHash paramsHash encodeHash tr →
      AcceptsSnark (tape (List.ofFn g)) satParams params s inputs (prover g) commit r1csHash paramsHash encodeHash tr' →
      ∀ i : Fin m, (∀ j < i, f j = g j) → before i tr = before i tr')
    (acc : Finset (Fin m → F))
    (hacc : ∀ f ∈ acc, ∃ tr,
      AcceptsSnark (tape (List.ofFn f)) satParams params s inputs (prover f) commit r1csHash paramsHash encodeHash tr) :
    acc.card ≤ m * snarkDegree s d * Fintype.card F ^ (m - 1) := by
  obtain ⟨ext, bad, hb, h⟩ := C80_partial satParams hp params hdp hop hmp s hf hn hgo hgm hchar enc commit tr0 tr0' henc inputs hz
    d hd k k1 k2 k3
  exact card_accepted m (snarkDegree s d) bad hb (snarkStart r1csHash paramsHash encodeHash) rfl
    (fun f tr => AcceptsSnark (tape (List.ofFn f)) satParams params s inputs (prover f) commit r1csHash paramsHash encodeHash tr)
    (fun f tr ha => ((h _ (prover f) _ _ _ tr (hs f) ha).1.trans hm.symm).le) hcausal
    (fun f tr ha => (h _ (prover f) _ _ _ tr (hs f) ha).2.resolve_left fun hs => hunsat ⟨_, hs⟩) acc hacc

/-- What the verifier says before a challenge, for a fixed proof, depends only on the earlier challenges. -/
theorem AcceptsSnark.before {m : Nat} {satParams : SatParams G} {params : EvalsParams G} {s : Inst F} {inputs : List F}
    {proof : SnarkProof F G} {commit : EncodeCommit G} {r1csHash paramsHash encodeHash : F} {tr tr' : Transcript F G}
    (f g : Fin m → F)
    (h : AcceptsSnark (tape (List.ofFn f)) satParams params s inputs proof commit r1csHash paramsHash encodeHash tr)
    (h' : AcceptsSnark (tape (List.ofFn g)) satParams params s inputs proof commit r1csHash paramsHash encodeHash tr')
    (i : Fin m) (hi : ∀ j < i, f j = g j) : Sc.before i tr = Sc.before i tr' := by
  obtain ⟨rx, ry, t1, h1, h2⟩ := h
  obtain ⟨rx', ry', t1', h1', h2'⟩ := h'
  obtain ⟨mid, hmid⟩ : ∃ mid : Vf F G Unit, ∀ t, mid t = .ok ((), t ++ between proof.evals commit) :=
    ⟨fun t => .ok ((), t ++ between proof.evals commit), fun _ => rfl⟩
  have hc : Causal fun ch : Oracle F G => (satVerify ch satParams s inputs proof.sat proof.evals >>= fun p =>
      mid >>= fun _ => sparseEvalVerify ch params proof.proof commit p.1 p.2 proof.evals : Vf F G Unit) := by
    refine (Causal.sat _ _ _ _ _).bind fun p => Causal.bind ?_ fun _ => Causal.sparse _ _ _ _ _ _
    intro n ch ch' tr a t a' t' _ e e'
    beta_reduce at e e'
    rw [hmid] at e e'
    cases e
    cases e'
    exact ⟨List.prefix_append _ _, List.prefix_append _ _, Or.inl ⟨rfl, rfl⟩⟩
  refine hc.before f g i hi (tr := snarkStart r1csHash paramsHash encodeHash) (a := ()) (a' := ()) ?_ ?_
  · rw [bind_ok h1, bind_ok (hmid _)]; exact h2
  · rw [bind_ok h1', bind_ok (hmid _)]; exact h2'

namespace Ex80

open Ex81 (circuit circuit_closed circuit_valid entries_eq t_eq n_eq openRand)

/-- Vectors with ten coordinates. -/
abbrev V10 := Fin 10 → F17

/-- Unit vectors as generators. -/
def pc (l : List (Fin 10)) : PcParams V10 := ⟨0, ⟨l.length, l.map unit, unit 0⟩, ⟨1, [unit 1], unit 0⟩⟩

def params : EvalsParams V10 := ⟨pc [2, 3, 4, 5, 6, 7, 8, 9], pc [2, 3, 4, 5], pc [2, 3, 4, 5]⟩

def satParams : SatParams V10 :=
  ⟨pc [2, 3], ⟨1, [unit 1], unit 0⟩, ⟨3, [unit 1, unit 2, unit 3], unit 0⟩, ⟨4, [unit 1, unit 2, unit 3, unit 4], unit 0⟩, 4⟩

theorem satParams_good : GoodParams F17 satParams :=
  ⟨rfl, rfl, rfl, rfl, unit_indep [0, 1, 2, 3] (by decide), unit_indep [0, 1, 2, 3] (by decide),
    unit_indep [0, 1, 2, 3, 4] (by decide)⟩

theorem pc_good (l : List (Fin 10)) (h : (0 :: 1 :: l).Nodup) : GoodPc F17 (pc l) := ⟨rfl, unit_indep (0 :: 1 :: l) h⟩

def ch : Oracle F17 V10 := fun tr => ((tr.length % 16 : Nat) : F17) + 1

theorem ch_ne (t : Transcript F17 V10) : ch t ≠ 0 := by
  have key : ∀ n < 16, ((n : Nat) : F17) + 1 ≠ 0 := by decide
  exact key _ (Nat.mod_lt _ (by decide))

/-- The lengths, as the code could check them. -/
def shaped (proof : SnarkProof F17 V10) : Bool :=
  proof.sat.dot.L.length = 1 ∧ proof.proof.hash.derefs.L.length = 2 ∧ proof.proof.hash.ops.L.length = 3 ∧
  proof.proof.hash.mem.L.length = 2 ∧ proof.proof.hash.row.1.length = 3 ∧ proof.proof.hash.row.2.1.length = 3 ∧
  proof.proof.hash.col.1.length = 3 ∧ proof.proof.hash.col.2.1.length = 3 ∧
  (proof.proof.layer.ops.layers ++ proof.proof.layer.memory.layers).all fun l => l.polys.all fun p => p.length ≤ 4

theorem shaped_ok {proof : SnarkProof F17 V10} (h : shaped proof = true) : Shaped 3 1 2 3 2 proof := by
  unfold shaped at h
  simp only [decide_eq_true_eq, List.all_eq_true] at h
  obtain ⟨h1, h2, h3, h4, h5, h6, h7, h8, h9⟩ := h
  exact ⟨h1, h2, h3, h4, h5, h6, h7, h8, h9⟩

/-- The encoding and the proof have these lengths. -/
def made : Bool :=
  match encode params (generateR1cs (circuit 6 3 10)) [] with
  | .ok ((enc, commit), _) =>
    match createSnark ch satParams params (generateR1cs (circuit 6 3 10)) (circuit 6 3 10) enc commit Ex79.rand openRand openRand
      openRand 1 2 3 with
    | .ok proof => shaped proof
    | .error _ => false
  | .error _ => false

theorem char_ok (u x out : F17) (j : Nat) (h0 : 0 < j) (h : j ≤ 2 ^ (generateR1cs (circuit u x out)).memVars +
    3 * 2 ^ Nat.clog 2 (generateR1cs (circuit u x out)).entries) : (j : F17) ≠ 0 := by
  rw [Ex81.memVars_eq, entries_eq, show Nat.clog 2 2 = 1 by decide] at h
  have key : ∀ j : Nat, j < 15 → 0 < j → (j : F17) ≠ 0 := by decide
  exact key j (by omega) h0

/-- The hypotheses of `C80_partial` can be met: the proof for the public inputs 6 and 10 and the witness 3 is accepted. -/
example : ∃ enc commit proof tr, encode params (generateR1cs (circuit 6 3 10)) [] = .ok ((enc, commit), []) ∧
    Shaped 3 1 2 3 2 proof ∧ AcceptsSnark ch satParams params (generateR1cs (circuit 6 3 10)) [6, 10] proof commit 1 2 3 tr ∧
    ∃ (ext : List V10 → Nat → F17) (bad : Transcript F17 V10 → List F17 → Finset F17),
      (generateR1cs (circuit 6 3 10)).Sat (assign (ext proof.sat.commitWitness) [6, 10]) ∨ Hit ch bad (snarkStart 1 2 3) tr := by
  have hm : made = true := by decide +kernel
  obtain ⟨enc, commit, h0, h1, -⟩ := C81_partial (by decide : (2 : F17) ≠ 0) (by decide : (3 : F17) ≠ 0) satParams rfl rfl
    (by simp [satParams, pc]) params (circuit 6 3 10) (circuit_closed _ _ _) (circuit_valid 6 3) [6, 10] rfl (.of_ne (by decide))
    (by rw [entries_eq]) (by rw [t_eq, Ex79.clog4]; decide)
    (by rw [entries_eq]; exact ⟨rfl, by decide, by simp [params, pc]⟩)
    (by rw [Ex81.memVars_eq]; exact ⟨rfl, by decide, by simp [params, pc]⟩)
    (by rw [entries_eq]; exact ⟨rfl, by decide, by simp [params, pc]⟩) Ex79.rand (Ex81.rand_shape _ _ _) openRand openRand openRand
    (by rw [entries_eq]; unfold OpenRand.Enough; decide) (by rw [entries_eq]; unfold OpenRand.Enough; decide)
    (by rw [Ex81.memVars_eq]; unfold OpenRand.Enough; decide) ch 1 2 3
  unfold made at hm
  rw [h0] at hm
  simp only [] at hm
  split at hm
  · next proof hp =>
    obtain ⟨tr, ha⟩ := (verifySnark_accepts _ _ _ _ _ _ _ _ _ _).1 (h1 proof hp)
    obtain ⟨ext, bad, _, h⟩ := C80_partial satParams satParams_good params (pc_good _ (by decide)) (pc_good _ (by decide))
      (pc_good _ (by decide)) (generateR1cs (circuit 6 3 10)) (generate_fits _ (circuit_closed _ _ _)) (by rw [entries_eq])
      (by rw [entries_eq]; decide) (by rw [Ex81.memVars_eq]; decide) (char_ok _ _ _) enc commit _ _ h0 [6, 10] (.of_ne (by decide)) 3 le_rfl
      1 2 3 2
    exact ⟨enc, commit, proof, tr, h0, shaped_ok hm, ha, ext, bad, (h ch proof 1 2 3 tr (shaped_ok hm) ha).2⟩
  · cases hm

/-- `x · (x + 6) = 11` has no solution. -/
theorem unsat : ¬ ∃ aux, (generateR1cs (circuit 6 3 11)).Sat (assign aux [6, 11]) := by
  rintro ⟨aux, h⟩
  have h1 := ((C48_generate (circuit 6 3 11) (assign aux [6, 11]) rfl).1).1 h _ (List.mem_singleton.2 rfl)
  have h2 : ∀ x : F17, x * (x + 6) ≠ 11 := by decide
  apply h2 (aux 0)
  simpa [R1C.Holds, LC.eval, assign] using h1

/-- A proof of this is accepted for at most a bounded number of the sequences of challenges. -/
example (enc : EncodeMemory F17) (commit : EncodeCommit V10)
    (henc : encode params (generateR1cs (circuit 6 3 11)) [] = .ok ((enc, commit), [])) (proof : SnarkProof F17 V10)
    (hs : Shaped 3 1 2 3 2 proof) (m : Nat) (hm : m = snarkNum (generateR1cs (circuit 6 3 11)) 1 2 3 2)
    (acc : Finset (Fin m → F17)) (hacc : ∀ f ∈ acc, ∃ tr, AcceptsSnark (tape (List.ofFn f)) satParams params
      (generateR1cs (circuit 6 3 11)) [6, 11] proof commit 1 2 3 tr) :
    acc.card ≤ m * snarkDegree (generateR1cs (circuit 6 3 11)) 3 * 17 ^ (m - 1) := by
  have := C80_count_partial satParams satParams_good params (pc_good _ (by decide)) (pc_good _ (by decide))
    (pc_good _ (by decide)) (generateR1cs (circuit 6 3 11)) (generate_fits _ (circuit_closed _ _ _)) (by rw [entries_eq])
    (by rw [entries_eq]; decide) (by rw [Ex81.memVars_eq]; decide) (char_ok _ _ _) enc commit _ _ henc [6, 11] (.of_ne (by decide)) 3 le_rfl
    1 2 3 2 unsat 1 2 3 m hm (fun _ => proof) (fun _ => hs) (fun f g _ _ h h' i hi => h.before f g h' i hi) acc hacc
  rwa [ZMod.card] at this

end Ex80

end Zkp.Spartan
