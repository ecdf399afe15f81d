/- C87: which honest runs of Libra's hiding protocol succeed. -/
import Verif.Proof.LibraZk
import Verif.Props.HyraxComplete

namespace Zkp.Lz

open Zkp.Ml Zkp.Spartan Zkp.Sc Zkp.Gkr Zkp.Cp Zkp.Hx

set_option linter.unusedSectionVars false
set_option linter.unusedSimpArgs false

variable {F : Type} [Field F] {G : Type} [AddCommGroup G] [Module F G] [DecidableEq F] [DecidableEq G]

/-- Every layer but the last has `2 ^ k` gates with `k ≥ 1`. -/
def WideLayers (raw : List (List (Nat × Nat × Nat))) : Prop := ∀ l ∈ raw.dropLast, ∃ k, 1 ≤ k ∧ l.length = 2 ^ k

theorem WideLayers.full : ∀ {raw : List (List (Nat × Nat × Nat))}, WideLayers raw → FullLayers raw
  | [], _ => trivial
  | [_], _ => trivial
  | l :: m :: ls, h => by
    obtain ⟨k, -, hk⟩ := h l (by simp)
    exact ⟨⟨k, hk⟩, WideLayers.full (raw := m :: ls) fun x hx => h x (by simp [hx])⟩

theorem upward_wide (raw : List (List (Nat × Nat × Nat))) (v : List F) (n : Nat) (hv : v.length = 2 ^ n) (hn : 1 ≤ n)
    (hw : WideLayers raw) : ∀ x ∈ upward v n raw, x.2.1.length = 2 ^ x.2.2 ∧ 1 ≤ x.2.2 := by
  induction raw generalizing v n with
  | nil => simp [upward]
  | cons l ls ih =>
    intro x hx
    rw [upward, List.mem_cons] at hx
    rcases hx with rfl | hx
    · exact ⟨hv, hn⟩
    · cases ls with
      | nil => simp [upward] at hx
      | cons m ms =>
        obtain ⟨k, hk1, hk⟩ := hw l (by simp)
        rw [hk, padTo_pow] at hx
        exact ih (l.map (gateValue v)) k (by simpa using hk) hk1 (fun x hx => hw x (by simp [hx])) x hx

theorem wide_upward (raw : List (List (Nat × Nat × Nat))) (v : List F) (n : Nat)
    (h : ∀ x ∈ upward v n raw, x.2.1.length = 2 ^ x.2.2 ∧ 1 ≤ x.2.2) : WideLayers raw := by
  induction raw generalizing v n with
  | nil => intro l hl; simp at hl
  | cons l ls ih =>
    intro x hx
    cases ls with
    | nil => simp at hx
    | cons m ms =>
      have h' := fun x hx => h x (List.mem_cons_of_mem _ hx)
      rw [List.dropLast_cons_of_ne_nil (by simp), List.mem_cons] at hx
      rcases hx with rfl | hx
      · have := h' (gatesOf m, x.map (gateValue v), Nat.clog 2 (padTo x.length)) (by simp [upward])
        exact ⟨_, this.2, by simpa using this.1⟩
      · exact ih _ _ h' x hx

theorem upward_parts (raw : List (List (Nat × Nat × Nat))) (v : List F) (l0 : Layer) :
    ((upward v l0.bitSize raw).reverse.map fun x => (x.1, x.2.2)) = layerParts ⟨raw.length + 1, l0 :: layersOf raw⟩ := by
  have h : (upward v l0.bitSize raw).map (fun x => (x.1, x.2.2)) = (List.range raw.length).map fun d =>
      (((l0 :: layersOf raw).map fun l => l.gates).getD (d + 1) [],
        ((l0 :: layersOf raw).map fun l => l.bitSize).getD d 0) := by
    induction raw generalizing v l0 with
    | nil => rfl
    | cons l ls ih =>
      have := ih (l.map (gateValue v)) ⟨l.length, Nat.clog 2 (padTo l.length), gatesOf l⟩
      rw [upward, List.map_cons, this, List.length_cons, List.range_succ_eq_map, List.map_cons (l := List.map _ _), List.map_map]
      rfl
  rw [List.map_reverse, h, layerParts]
  apply List.ext_getElem
  · simp
  · intro i h1 h2
    simp only [List.length_reverse, List.length_map, List.length_range] at h1
    simp only [List.getElem_reverse, List.getElem_map, List.length_map, List.length_range, List.getElem_range]
    congr 2 <;> omega

theorem pack_runs (g : List G) (h : G) (values blinds : List F) (m : Nat) (hv : values.length = 2 ^ m)
    (hb : blinds.length = 2 ^ (m / 2)) (t : Transcript F G) : ∃ comms, packCommit g h values blinds t = .ok (comms, t) := by
  refine ⟨(List.range (2 ^ (m / 2))).map fun i => commitVec g ((values.drop (i * 2 ^ (m - m / 2))).take (2 ^ (m - m / 2)))
    h (blinds.getD i 0), Cp.runs_eq ?_⟩
  unfold packCommit
  rw [hv, Nat.clog_pow 2 _ (by decide)]
  refine (Runs.ensure (decide_eq_true (by rw [← pow_add]; congr 1; omega))).bind fun _ _ e => ?_
  subst e
  refine (Runs.ensure (decide_eq_true hb)).bind fun _ _ e => ?_
  subst e
  exact Runs.pure ⟨rfl, rfl⟩

/-- The outputs of the circuit if the input layer has `2 ^ k` witness values before `2 ^ k` public values. -/
def honest (raw : List (List (Nat × Nat × Nat))) (inputs witnesses : List F) : List F :=
  topValues (witnesses ++ inputs) raw

/-- Circuits whose layers, but for the last, have `2 ^ k` gates, `k ≥ 1`, with as many public inputs and as many
witness values as half the input layer: the prover does not panic, the outputs it returns are those of the circuit
and the verifier accepts.

Partial: the full claim is `C87_statement`; it is false (`C87_shape`, `C87_inputs`). -/
theorem C87_partial (h2 : (2 : F) ≠ 0) (ch : Oracle F G) (hch : ∀ t, ch (t ++ [.chal "x"]) ≠ 0) (num : Nat) (r : ParamRand G)
    (ni na : Nat) (raw : List (List (Nat × Nat × Nat))) (c : Circuit) (hc : Circuit.new ni na raw = .ok c) (hne : raw ≠ [])
    (hwide : WideLayers raw) (k : Nat) (hk : k = Nat.clog 2 (max na ni)) (inputs witnesses : List F)
    (hi : inputs.length = 2 ^ k) (hw : witnesses.length = 2 ^ k) (hi' : inputs.length ≤ ni) (hw' : witnesses.length ≤ na)
    (hnum : k ≤ num) (circuitHash paramsHash : F) (rand : GkrRand F) (hb : rand.witness.length = 2 ^ (k / 2))
    (hr : ∀ i, (rand.layers i).Ok) (hb0 : k - k / 2 ≤ rand.in0.bullet.length) (hb1 : k - k / 2 ≤ rand.in1.bullet.length) :
    ∃ proof, zkProver ch (paramsNew num r) c inputs witnesses circuitHash paramsHash rand =
        .ok (proof, honest raw inputs witnesses) ∧
      zkVerify ch (paramsNew num r) c (honest raw inputs witnesses) inputs circuitHash paramsHash proof = .ok true := by
  obtain ⟨v0, e0, hv0, ev⟩ := C55_evaluates ni na raw c hc inputs witnesses hi' hw'
  have hl := (C55_accepted ni na raw).1 ⟨c, hc⟩
  rw [new_eq ni na raw hl] at hc
  obtain rfl := (Except.ok.inj hc).symm
  obtain ⟨c1, c2⟩ := C54_partial ni na inputs witnesses hi' hw' (hi.trans hw.symm)
  have hlay : layout (2 ^ Nat.clog 2 (max na ni)) inputs witnesses = witnesses ++ inputs := by
    rw [← hk, layout, hi, hw]; simp
  rw [hlay] at c1 c2
  obtain rfl : v0 = witnesses ++ inputs := by
    rw [c1] at e0; exact (Except.ok.inj e0).symm
  have hbit : (inputNew ni na).bitSize = k + 1 := by rw [inputNew_bitSize, hk]
  rw [show 2 * 2 ^ Nat.clog 2 (max na ni) = 2 ^ (k + 1) by rw [← hk, pow_succ]; omega] at hl hv0
  obtain ⟨v0, hvd⟩ : ∃ v0, v0 = witnesses ++ inputs := ⟨_, rfl⟩
  have hh : honest raw inputs witnesses = topValues v0 raw := by rw [hvd, honest]
  rw [hh]
  rw [← hvd] at ev hv0 c2
  obtain ⟨params, hP⟩ : ∃ params : Params G, params = paramsNew num r := ⟨_, rfl⟩
  have hsize : 2 ^ (k - k / 2) ≤ 2 ^ (num - num / 2) := Nat.pow_le_pow_right (by decide) (by omega)
  have p1 : params.pc.genN.h = params.pc.gen1.h := by rw [hP]; rfl
  have p2 : params.pc.gen1 = params.gen1 := by rw [hP]; rfl
  have p3 : 2 ^ (k - k / 2) ≤ params.pc.n := by rw [hP]; exact hsize
  have p4 : 2 ^ (k - k / 2) ≤ params.pc.genN.generators.length := by
    rw [hP]; simpa [paramsNew, multiNew] using hsize
  have p5 : params.pc.gen1.generators ≠ [] := by rw [hP]; simp [paramsNew]
  rw [← hP]
  obtain ⟨pre, l, rfl⟩ := splitLast raw hne
  obtain ⟨t1, t2⟩ := topValues_length pre l v0 (inputNew ni na)
  have hout : (topValues v0 (pre ++ [l])).length ≤ 2 ^ Nat.clog 2 (padTo l.length) := by rw [t1]; exact le_padTo _
  obtain ⟨tr0, htr0⟩ : ∃ tr0 : Transcript F G, tr0 = zkStart circuitHash paramsHash inputs (topValues v0 (pre ++ [l])) := ⟨_, rfl⟩
  obtain ⟨comms, hcom⟩ := pack_runs params.pc.genN.generators params.pc.genN.h witnesses rand.witness k hw hb tr0
  obtain ⟨gu, tr1, o1, o2⟩ := evalOutput_run ch (topValues v0 (pre ++ [l])) _ hout (tr0 ++ [.pts "comm_witness" comms])
  have hwd := upward_wide (pre ++ [l]) v0 (k + 1) hv0 (by omega) hwide
  obtain ⟨ps, ru, rv, bx, by', tr2, r1, r2, r3, r4, r5, r6⟩ := zkLayers_run h2 ch params rand.layers hr
    (upward v0 (k + 1) (pre ++ [l])).reverse (by cases pre <;> simp [upward])
    (fun x hx => (hwd x (List.mem_reverse.1 hx)).2) 0 (topValues v0 (pre ++ [l])) v0 gu (List.replicate gu.length 0) gu 1 0
    (mle (topValues v0 (pre ++ [l])) gu) 0 0 (by simp) rfl (Or.inl rfl) (by rw [o2]; exact hout)
    (upward_chain _ v0 _ hv0 hl hwide.full) (by simp) tr1
  have hup : ∀ (raw : List (List (Nat × Nat × Nat))) (v : List F) n, (upward v n raw).length = raw.length := by
    intro raw
    induction raw with
    | nil => intros; rfl
    | cons a l ih => intros; simp [upward, ih]
  rw [List.length_reverse, hup] at r2
  have hru : ru.length = k + 1 := by
    rw [hv0] at r3; exact (Nat.pow_right_injective le_rfl r3).symm
  have hrv : rv.length = k + 1 := r4 ▸ hru
  have hx : ∀ q : List F, q.length = k + 1 →
      mle v0 q = (1 - q.headD 0) * mle witnesses ([] ++ q.tail) + q.headD 0 * mle inputs ([] ++ q.tail) := by
    intro q hq
    obtain ⟨a, q, rfl⟩ := List.exists_cons_of_length_eq_add_one hq
    exact c2 q (by rw [← hk]; simpa using hq) a
  obtain ⟨prod0, y0, eq0, tr3, z1, z2⟩ := input_follow ch hch params p1 p2 witnesses rand.witness inputs [] ru k (by omega)
    (by simp [hru]) hw hb hi.le p3 p4 p5 (mle v0 ru) bx rand.in0 hb0 (hx ru hru) comms _ _ hcom tr2
  obtain ⟨prod1, y1, eq1, tr4, z3, z4⟩ := input_follow ch hch params p1 p2 witnesses rand.witness inputs [] rv k (by omega)
    (by simp [hrv]) hw hb hi.le p3 p4 p5 (mle v0 rv) by' rand.in1 hb1 (hx rv hrv) comms _ _ hcom tr3
  refine ⟨⟨comms, ps, prod0, y0, eq0, prod1, y1, eq1⟩, ?_, ?_⟩
  · unfold zkProver
    have ht : (v0 :: circuitValues v0 (pre ++ [l])).getLastD [] = topValues v0 (pre ++ [l]) := rfl
    simp only [ev, ht]
    rw [← htr0]
    have hrun : zkProveRun ch params ⟨(pre ++ [l]).length + 1, inputNew ni na :: layersOf (pre ++ [l])⟩
        (v0 :: circuitValues v0 (pre ++ [l])) witnesses rand tr0 = .ok (⟨comms, ps, prod0, y0, eq0, prod1, y1, eq1⟩, tr4) := by
      apply Cp.runs_eq
      unfold zkProveRun
      refine (Cp.runs_of hcom).bind fun _ _ e => ?_
      obtain ⟨rfl, rfl⟩ := e
      refine Runs.say.bind fun _ _ e => ?_
      subst e
      refine (Runs.ensure (by simp)).bind fun _ _ e => ?_
      subst e
      refine (Runs.orPanic (by simpa using t2)).bind fun _ _ e => ?_
      obtain ⟨rfl, rfl⟩ := e
      rw [ht]
      refine (Cp.runs_of o1).bind fun _ _ e => ?_
      obtain ⟨rfl, rfl⟩ := e
      simp only [layerInputs_eq, hbit]
      refine (Cp.runs_of r1).bind fun _ _ e => ?_
      obtain ⟨rfl, rfl⟩ := e
      refine (Cp.runs_of z1).bind fun _ _ e => ?_
      obtain ⟨rfl, rfl⟩ := e
      refine (Cp.runs_of z3).bind fun _ _ e => ?_
      obtain ⟨rfl, rfl⟩ := e
      exact Runs.pure ⟨rfl, rfl⟩
    rw [hrun]
  · unfold zkVerify
    rw [← htr0]
    have hrun : zkVerifyRun ch params ⟨(pre ++ [l]).length + 1, inputNew ni na :: layersOf (pre ++ [l])⟩
        (topValues v0 (pre ++ [l])) inputs ⟨comms, ps, prod0, y0, eq0, prod1, y1, eq1⟩ tr0 = .ok ((), tr4) := by
      apply Cp.runs_eq
      unfold zkVerifyRun
      refine Runs.say.bind fun _ _ e => ?_
      subst e
      refine (Runs.ensure (by simp)).bind fun _ _ e => ?_
      subst e
      refine (Runs.orPanic (by simpa using t2)).bind fun _ _ e => ?_
      obtain ⟨rfl, rfl⟩ := e
      refine (Cp.runs_of o1).bind fun _ _ e => ?_
      obtain ⟨rfl, rfl⟩ := e
      refine (Runs.ensure (decide_eq_true (by simp only [Nat.add_sub_cancel]; exact r2.symm))).bind fun _ _ e => ?_
      subst e
      rw [← upward_parts (pre ++ [l]) v0, p2, hbit]
      refine (Cp.runs_of r6).bind fun _ _ e => ?_
      obtain ⟨rfl, rfl⟩ := e
      refine (Runs.orPanic (a := inputNew ni na) rfl).bind fun _ _ e => ?_
      obtain ⟨rfl, rfl⟩ := e
      simp only [hbit, Nat.add_sub_cancel]
      refine (Runs.ensure (by simp)).bind fun _ _ e => ?_
      subst e
      refine (Runs.ensure (decide_eq_true hi.le)).bind fun _ _ e => ?_
      subst e
      rw [hi, Nat.sub_self, List.replicate_zero, List.append_nil]
      refine (Cp.runs_of z2).bind fun _ _ e => ?_
      obtain ⟨-, rfl⟩ := e
      exact (Cp.runs_of z4).mono fun _ _ e => ⟨trivial, e.2⟩
    rw [hrun]

/-! ### What a run of the prover requires -/

theorem hidingRounds_count (ch : Oracle F G) (gen1 genN : MultiParams G) (size : Nat)
    (round : List (List F) → F → Option (List F)) : ∀ (rands : List (RoundRand F)) (claim blind : F) (ts : List (List F))
      (tr tr' : Transcript F G) out, hidingRounds ch gen1 genN size round rands claim blind ts tr = .ok (out, tr') →
      out.2.1.length = rands.length := by
  intro rands
  induction rands with
  | nil =>
    intro claim blind ts tr tr' out h
    obtain ⟨rfl, -⟩ := pure_inv h
    rfl
  | cons x xs ih =>
    intro claim blind ts tr tr' out h
    unfold hidingRounds at h
    obtain ⟨_, _, _, h⟩ := bind_inv h
    obtain ⟨_, _, _, h⟩ := bind_inv h
    obtain ⟨_, _, _, h⟩ := bind_inv h
    obtain ⟨_, _, _, h⟩ := bind_inv h
    obtain ⟨_, _, _, h⟩ := bind_inv h
    obtain ⟨_, _, _, h⟩ := bind_inv h
    obtain ⟨_, _, _, h⟩ := bind_inv h
    obtain ⟨_, _, hr, h⟩ := bind_inv h
    obtain ⟨rfl, -⟩ := pure_inv h
    simp [ih _ _ _ _ _ _ hr]

theorem zkLayer_needs (ch : Oracle F G) (params : Params G) (gates : List Gate) (v : List F) (n : Nat) (gu gv : List F)
    (alpha beta claim claimBlind : F) (rand : LayerRand F) (tr tr' : Transcript F G) (p : ZkLayer F G) (ru rv : List F)
    (fu e0 f0 : F)
    (h : zkLayerProve ch params gates v n gu gv alpha beta claim claimBlind rand tr = .ok ((p, ru, rv, fu, e0, f0), tr')) :
    v.length = 2 ^ n ∧ 1 ≤ n ∧ ru.length = n := by
  unfold zkLayerProve at h
  obtain ⟨_, _, _, h⟩ := bind_inv h
  obtain ⟨⟨one, evals, blind, ru'⟩, _, h1, h⟩ := bind_inv h
  obtain ⟨_, _, _, h⟩ := bind_inv h
  obtain ⟨_, _, _, h⟩ := bind_inv h
  obtain ⟨_, _, _, h⟩ := bind_inv h
  obtain ⟨_, _, _, h⟩ := bind_inv h
  obtain ⟨_, _, _, h⟩ := bind_inv h
  obtain ⟨_, _, _, h⟩ := bind_inv h
  obtain ⟨_, _, _, h⟩ := bind_inv h
  obtain ⟨_, _, _, h⟩ := bind_inv h
  obtain ⟨_, _, _, h⟩ := bind_inv h
  obtain ⟨_, _, _, h⟩ := bind_inv h
  obtain ⟨_, _, _, h⟩ := bind_inv h
  obtain ⟨_, _, _, h⟩ := bind_inv h
  obtain ⟨_, _, _, h⟩ := bind_inv h
  obtain ⟨h, -⟩ := pure_inv h
  obtain rfl : ru = ru' := by simp only [Prod.mk.injEq] at h; exact h.2.1.symm
  unfold zkPhaseOne at h1
  obtain ⟨_, _, a1, h1⟩ := bind_inv h1
  obtain ⟨⟨x1, x2, x3, x4, x5⟩, _, a2, h1⟩ := bind_inv h1
  obtain ⟨_, _, _, h1⟩ := bind_inv h1
  obtain ⟨_, _, a3, h1⟩ := bind_inv h1
  obtain ⟨h1, -⟩ := pure_inv h1
  have a1 := of_decide_eq_true (ensure_inv a1).1
  have a3 := of_decide_eq_true (ensure_inv a3).1
  have a4 := hidingRounds_count _ _ _ _ _ _ _ _ _ _ _ _ a2
  simp only [List.length_map, List.length_range] at a4
  refine ⟨a1.2.2.2, a3, ?_⟩
  simp only [Prod.mk.injEq] at h1
  rw [← a4, h1.2.2.2]

theorem zkLayers_needs (ch : Oracle F G) (params : Params G) (rands : Nat → LayerRand F)
    (items : List (List Gate × List F × Nat)) : ∀ (i : Nat) (gu gv : List F) (a b c d e : F) (tr tr' : Transcript F G)
      (ps : List (ZkLayer F G)) (fin : Final F),
      zkLayersProve ch params rands items i gu gv a b c d e tr = .ok ((ps, fin), tr') →
      (∀ x ∈ items, x.2.1.length = 2 ^ x.2.2 ∧ 1 ≤ x.2.2) ∧
        ∀ x, items.getLast? = some x → fin.gu.length = x.2.2 := by
  induction items with
  | nil =>
    intro i gu gv a b c d e tr tr' ps fin h
    simp
  | cons x rest ih =>
    intro i gu gv a b c d e tr tr' ps fin h
    obtain ⟨gates, v, n⟩ := x
    unfold zkLayersProve at h
    obtain ⟨⟨p, ru, rv, fu, e0, f0⟩, _, h1, h⟩ := bind_inv h
    obtain ⟨n1, n2, n3⟩ := zkLayer_needs _ _ _ _ _ _ _ _ _ _ _ _ _ _ _ _ _ _ _ _ h1
    cases rest with
    | nil =>
      obtain ⟨h, -⟩ := pure_inv h
      simp only [Prod.mk.injEq] at h
      refine ⟨by simpa using ⟨n1, n2⟩, ?_⟩
      intro x hx
      simp only [List.getLast?_singleton, Option.some.injEq] at hx
      rw [← hx, ← h.2]; exact n3
    | cons y rest =>
      obtain ⟨_, _, _, h⟩ := bind_inv h
      obtain ⟨_, _, _, h⟩ := bind_inv h
      obtain ⟨⟨ps', fin'⟩, _, h2, h⟩ := bind_inv h
      obtain ⟨h, -⟩ := pure_inv h
      simp only [Prod.mk.injEq] at h
      obtain ⟨m1, m2⟩ := ih _ _ _ _ _ _ _ _ _ _ _ _ h2
      refine ⟨?_, ?_⟩
      · intro z hz
        rcases List.mem_cons.1 hz with rfl | hz
        · exact ⟨n1, n2⟩
        · exact m1 z hz
      · intro z hz
        rw [List.getLast?_cons_cons] at hz
        rw [← h.2]
        exact m2 z hz

/-- The shape of the circuit and the number of witness values that `C87_partial` asks for are necessary: whatever the
parameters, challenges, random choices and inputs, the prover panics for every other circuit and every other number
of witness values. -/
theorem C87_shape (ch : Oracle F G) (params : Params G) (ni na : Nat) (raw : List (List (Nat × Nat × Nat))) (c : Circuit)
    (hc : Circuit.new ni na raw = .ok c) (hne : raw ≠ []) (inputs witnesses : List F) (hi : inputs.length ≤ ni)
    (hw : witnesses.length ≤ na) (circuitHash paramsHash : F) (rand : GkrRand F) (out : ZkGkrProof F G × List F)
    (h : zkProver ch params c inputs witnesses circuitHash paramsHash rand = .ok out) :
    WideLayers raw ∧ witnesses.length = 2 ^ Nat.clog 2 (max na ni) := by
  obtain ⟨v0, e0, hv0, ev⟩ := C55_evaluates ni na raw c hc inputs witnesses hi hw
  have hl := (C55_accepted ni na raw).1 ⟨c, hc⟩
  rw [new_eq ni na raw hl] at hc
  obtain rfl := (Except.ok.inj hc).symm
  unfold zkProver at h
  simp only [ev] at h
  cases hrun : zkProveRun ch params ⟨raw.length + 1, inputNew ni na :: layersOf raw⟩ (v0 :: circuitValues v0 raw) witnesses
      rand (zkStart circuitHash paramsHash inputs ((v0 :: circuitValues v0 raw).getLastD [])) with
  | error e => rw [hrun] at h; cases h
  | ok x =>
    obtain ⟨proof, tr'⟩ := x
    unfold zkProveRun at hrun
    obtain ⟨_, _, g1, hrun⟩ := bind_inv hrun
    obtain ⟨_, _, _, hrun⟩ := bind_inv hrun
    obtain ⟨_, _, _, hrun⟩ := bind_inv hrun
    obtain ⟨_, _, _, hrun⟩ := bind_inv hrun
    obtain ⟨_, _, _, hrun⟩ := bind_inv hrun
    obtain ⟨⟨ps, fin⟩, _, g2, hrun⟩ := bind_inv hrun
    obtain ⟨_, _, g3, _⟩ := bind_inv hrun
    rw [layerInputs_eq] at g2
    obtain ⟨n1, n2⟩ := zkLayers_needs _ _ _ _ _ _ _ _ _ _ _ _ _ _ _ _ g2
    refine ⟨wide_upward raw v0 _ fun x hx => n1 x (List.mem_reverse.2 hx), ?_⟩
    have hgu : fin.gu.length = Nat.clog 2 (max na ni) + 1 := by
      rw [← inputNew_bitSize]
      cases raw with
      | nil => exact absurd rfl hne
      | cons l ls =>
        exact n2 (gatesOf l, v0, (inputNew ni na).bitSize) (by rw [List.getLast?_reverse]; rfl)
    unfold packCommit at g1
    obtain ⟨_, _, g1, _⟩ := bind_inv g1
    have g1 := of_decide_eq_true (ensure_inv g1).1
    unfold inputProve at g3
    obtain ⟨_, _, _, g3⟩ := bind_inv g3
    obtain ⟨_, _, _, g3⟩ := bind_inv g3
    obtain ⟨_, _, g4, _⟩ := bind_inv g3
    unfold evalProve at g4
    obtain ⟨_, _, g4, _⟩ := bind_inv g4
    unfold combineRows at g4
    obtain ⟨_, _, g4, _⟩ := bind_inv g4
    have g4 := of_decide_eq_true (ensure_inv g4).1
    simp only [List.nil_append, List.length_tail, hgu, Nat.add_sub_cancel] at g4
    rw [g4]
    rw [← pow_add] at g1
    exact g1.trans (congrArg (2 ^ ·) (by omega))

/-! ### The full claim and why it is false -/

/-- The full claim: for every circuit that `Circuit::new` accepts, with the declared numbers of inputs and witness values,
the prover succeeds and the verifier accepts its proof. -/
def C87_statement (F G : Type) [Field F] [AddCommGroup G] [Module F G] [DecidableEq F] [DecidableEq G] : Prop :=
  ∀ (ch : Oracle F G), (∀ t, ch (t ++ [.chal "x"]) ≠ 0) → ∀ (num : Nat) (r : ParamRand G) (ni na : Nat)
    (raw : List (List (Nat × Nat × Nat))) (c : Circuit), Circuit.new ni na raw = .ok c → raw ≠ [] →
    ∀ inputs witnesses : List F, inputs.length = ni → witnesses.length = na → Nat.clog 2 (max na ni) ≤ num →
    ∀ (circuitHash paramsHash : F) (rand : GkrRand F), rand.witness.length = 2 ^ (Nat.clog 2 na / 2) →
      (∀ i, (rand.layers i).Ok) → num ≤ rand.in0.bullet.length → num ≤ rand.in1.bullet.length →
    ∃ proof outputs, zkProver ch (paramsNew num r) c inputs witnesses circuitHash paramsHash rand = .ok (proof, outputs) ∧
      zkVerify ch (paramsNew num r) c outputs inputs circuitHash paramsHash proof = .ok true

/-- Random scalars for the examples. -/
def exLayerRand (s : Nat) : LayerRand F17 :=
  ⟨fun j => ⟨((3 * j + s : Nat) : F17), 2, [1, 5, ((j + s : Nat) : F17)], 3, 4⟩,
    fun j => ⟨((5 * j + s : Nat) : F17), 7, [2, 3, ((j + 2 * s : Nat) : F17)], 1, 6⟩, 5, 6, 7, fun j => ((2 * j + s : Nat) : F17), 9⟩

/-- The same for a whole proof, with `w` rows of the witness. -/
def exGkrRand (w : Nat) : GkrRand F17 :=
  ⟨(List.range w).map fun i => ((i + 3 : Nat) : F17), exLayerRand, ⟨1, 2, 3, 4, [(5, 6), (7, 8), (1, 1)], 9⟩,
    ⟨3, 2, 3, 4, [(5, 6), (7, 8), (1, 1)], 9⟩⟩

theorem exGkrRand_ok (w i : Nat) : ((exGkrRand w).layers i).Ok := ⟨fun _ => rfl, fun _ => rfl⟩

/-- The prover succeeds and the verifier does not return. -/
def rejected (ni na : Nat) (raw : List (List (Nat × Nat × Nat))) (inputs witnesses : List F17) : Bool :=
  match Circuit.new ni na raw with
  | .error _ => false
  | .ok c =>
    match zkProver exChal (paramsNew 2 exPoints) c inputs witnesses 1 2 (exGkrRand 1) with
    | .error _ => false
    | .ok (p, o) =>
      match zkVerify exChal (paramsNew 2 exPoints) c o inputs 1 2 p with
      | .ok _ => false
      | .error _ => true

/-- One public input and two witness values: the proof of the honest prover is rejected. -/
theorem C87_inputs : ∃ c, Circuit.new 1 2 [[(0, 0, 1), (1, 2, 3)], [(0, 0, 1)]] = .ok c ∧ ∃ proof outputs,
    zkProver exChal (paramsNew 2 exPoints) c [3] [5, 6] 1 2 (exGkrRand 1) = .ok (proof, outputs) ∧
      ∃ e, zkVerify exChal (paramsNew 2 exPoints) c outputs [3] 1 2 proof = .error e := by
  have h : rejected 1 2 [[(0, 0, 1), (1, 2, 3)], [(0, 0, 1)]] [3] [5, 6] = true := by decide +kernel
  unfold rejected at h
  split at h
  · cases h
  · rename_i c hc
    split at h
    · cases h
    · rename_i p o hp
      split at h
      · cases h
      · rename_i e he
        exact ⟨c, hc, p, o, hp, e, he⟩

theorem C87_statement_false : ¬C87_statement F17 F17 := by
  intro h
  obtain ⟨c, hc, proof, outputs, hp, e, he⟩ := C87_inputs
  obtain ⟨proof', outputs', h1, h2⟩ := h exChal (fun t => exChal_ne _) 2 exPoints 1 2 _ c hc (by simp) [3] [5, 6] rfl rfl
    (by decide) 1 2 (exGkrRand 1) (by simp [exGkrRand, show Nat.clog 2 2 = 1 by decide]) (exGkrRand_ok 1)
    (by simp [exGkrRand]) (by simp [exGkrRand])
  rw [hp] at h1
  cases h1
  rw [he] at h2
  cases h2

/-- A layer of a single gate below another one, a layer of three gates, and one witness value for an input layer of two
times two: the prover panics. -/
example : (∃ c, Circuit.new 2 2 [[(0, 0, 1)], [(1, 0, 0)]] = .ok c ∧ ∀ out,
      zkProver exChal (paramsNew 2 exPoints) c [3, 4] [5, 6] 1 2 (exGkrRand 1) ≠ .ok out) ∧
    (∃ c, Circuit.new 2 2 [[(0, 0, 1), (1, 2, 3), (1, 1, 1)], [(1, 0, 1)]] = .ok c ∧ ∀ out,
      zkProver exChal (paramsNew 2 exPoints) c [3, 4] [5, 6] 1 2 (exGkrRand 1) ≠ .ok out) ∧
    ∃ c, Circuit.new 2 2 [[(0, 0, 1), (1, 2, 3)]] = .ok c ∧ ∀ out,
      zkProver exChal (paramsNew 2 exPoints) c [3, 4] [5] 1 2 (exGkrRand 1) ≠ .ok out := by
  have hk : Nat.clog 2 (max 2 2) = 1 := by decide
  refine ⟨?_, ?_, ?_⟩
  · obtain ⟨c, hc⟩ := (C55_accepted 2 2 [[(0, 0, 1)], [(1, 0, 0)]]).2 (by rw [hk]; simp [LegalLayers, Legal])
    refine ⟨c, hc, fun out h => ?_⟩
    obtain ⟨k, h1, h2⟩ := (C87_shape _ _ _ _ _ _ hc (by simp) _ _ (by simp) (by simp) _ _ _ _ h).1 [(0, 0, 1)] (by simp)
    rcases k with _ | k
    · omega
    · simp only [List.length_cons, List.length_nil, pow_succ] at h2; omega
  · obtain ⟨c, hc⟩ := (C55_accepted 2 2 [[(0, 0, 1), (1, 2, 3), (1, 1, 1)], [(1, 0, 1)]]).2 (by
      rw [hk]; simp [LegalLayers, Legal])
    refine ⟨c, hc, fun out h => ?_⟩
    obtain ⟨k, h1, h2⟩ := (C87_shape _ _ _ _ _ _ hc (by simp) _ _ (by simp) (by simp) _ _ _ _ h).1
      [(0, 0, 1), (1, 2, 3), (1, 1, 1)] (by simp)
    rcases k with _ | k
    · omega
    · simp only [List.length_cons, List.length_nil, pow_succ] at h2; omega
  · obtain ⟨c, hc⟩ := (C55_accepted 2 2 [[(0, 0, 1), (1, 2, 3)]]).2 (by rw [hk]; simp [LegalLayers, Legal])
    refine ⟨c, hc, fun out h => ?_⟩
    have := (C87_shape _ _ _ _ _ _ hc (by simp) _ _ (by simp) (by simp) _ _ _ _ h).2
    rw [hk] at this
    simp at this

/-- Two layers over two public inputs and two witness values. -/
example : ∃ c, Circuit.new 2 2 [[(0, 0, 2), (1, 1, 3)], [(1, 0, 1), (0, 0, 1), (1, 1, 1)]] = .ok c ∧ ∃ proof,
    zkProver exChal (paramsNew 2 exPoints) c [3, 4] [5, 6] 1 2 (exGkrRand 1) = .ok (proof, [8 * 24, 8 + 24, 24 * 24]) ∧
    zkVerify exChal (paramsNew 2 exPoints) c [8 * 24, 8 + 24, 24 * 24] [3, 4] 1 2 proof = .ok true := by
  have hk : Nat.clog 2 (max 2 2) = 1 := by decide
  obtain ⟨c, hc⟩ := (C55_accepted 2 2 [[(0, 0, 2), (1, 1, 3)], [(1, 0, 1), (0, 0, 1), (1, 1, 1)]]).2 (by
    rw [hk]; simp [LegalLayers, Legal])
  refine ⟨c, hc, ?_⟩
  have := C87_partial (F := F17) (G := F17) (by decide) exChal (fun t => exChal_ne _) 2 exPoints 2 2 _ c hc (by simp)
    (fun l hl => ⟨1, le_rfl, by simp at hl; rw [hl]; rfl⟩) 1 hk.symm [3, 4] [5, 6] rfl rfl (by simp) (by simp) (by simp) 1 2
    (exGkrRand 1) rfl (exGkrRand_ok 1) (by simp [exGkrRand]) (by simp [exGkrRand])
  have ho : honest [[(0, 0, 2), (1, 1, 3)], [(1, 0, 1), (0, 0, 1), (1, 1, 1)]] [3, 4] [5, 6] =
      ([8 * 24, 8 + 24, 24 * 24] : List F17) := by decide +kernel
  rw [ho] at this
  exact this

end Zkp.Lz
