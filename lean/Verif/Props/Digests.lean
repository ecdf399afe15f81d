/- C89: the digests of circuits, parameters and encodings identify them. -/
import Verif.Model.Digests
import Verif.Proof.F17

namespace Zkp.Digest

open Zkp.Spartan Zkp.Gkr

variable {F G : Type}

/-- Two streams that no hash function tells apart are equal. -/
theorem oracle_ext [Nontrivial F] {a b : Transcript F G} (h : ∀ ch : Oracle F G, ch a = ch b) : a = b := by
  classical
  obtain ⟨x, y, hxy⟩ := exists_pair_ne F
  by_contra hab
  have := h fun t => if t = a then x else y
  simp only [if_true, if_neg (Ne.symm hab)] at this
  exact hxy this

/-- A run of messages of one kind ends where another kind begins. -/
theorem run_inj {α : Type} (f : α → Msg F G) (hf : Function.Injective f) (xs ys : List α) (r r' : List (Msg F G))
    (hr : ∀ x, r.head? ≠ some (f x)) (hr' : ∀ x, r'.head? ≠ some (f x)) (h : xs.map f ++ r = ys.map f ++ r') :
    xs = ys ∧ r = r' := by
  induction xs generalizing ys with
  | nil =>
    cases ys with
    | nil => exact ⟨rfl, h⟩
    | cons y ys => exact absurd (by rw [show r = _ from h]; rfl) (hr y)
  | cons x xs ih =>
    cases ys with
    | nil => exact absurd (by rw [← show _ = r' from h]; rfl) (hr' x)
    | cons y ys =>
      simp only [List.map_cons, List.cons_append, List.cons.injEq] at h
      obtain ⟨e1, e2⟩ := ih ys h.2
      exact ⟨by rw [hf h.1, e1], e2⟩

theorem multi_inj (p p' : MultiParams G) (r r' : List (Msg F G))
    (hr : ∀ g, r.head? ≠ some (.pt "MultiCommitmentParameters_generators" g))
    (hr' : ∀ g, r'.head? ≠ some (.pt "MultiCommitmentParameters_generators" g))
    (h : multiMsgs p ++ r = multiMsgs p' ++ r') : p = p' ∧ r = r' := by
  obtain ⟨n, gs, b⟩ := p
  obtain ⟨n', gs', b'⟩ := p'
  simp only [multiMsgs, List.cons_append, List.nil_append, List.cons.injEq, Msg.u64.injEq, Msg.pt.injEq, true_and] at h
  obtain ⟨rfl, rfl, h10⟩ := h
  obtain ⟨rfl, h20⟩ := run_inj _ (fun a b => by simp) _ _ _ _ hr hr' h10
  exact ⟨rfl, h20⟩

theorem five_inj (p p' q q' s s' t t' u u' : MultiParams G) (r r' : List (Msg F G))
    (hr : ∀ g, r.head? ≠ some (.pt "MultiCommitmentParameters_generators" g))
    (hr' : ∀ g, r'.head? ≠ some (.pt "MultiCommitmentParameters_generators" g))
    (h : multiMsgs p ++ multiMsgs q ++ multiMsgs s ++ multiMsgs t ++ multiMsgs u ++ r =
      multiMsgs p' ++ multiMsgs q' ++ multiMsgs s' ++ multiMsgs t' ++ multiMsgs u' ++ r') :
    p = p' ∧ q = q' ∧ s = s' ∧ t = t' ∧ u = u' ∧ r = r' := by
  simp only [List.append_assoc] at h
  obtain ⟨rfl, h10⟩ := multi_inj p p' _ _ (by simp [multiMsgs]) (by simp [multiMsgs]) h
  obtain ⟨rfl, h20⟩ := multi_inj q q' _ _ (by simp [multiMsgs]) (by simp [multiMsgs]) h10
  obtain ⟨rfl, h30⟩ := multi_inj s s' _ _ (by simp [multiMsgs]) (by simp [multiMsgs]) h20
  obtain ⟨rfl, h40⟩ := multi_inj t t' _ _ (by simp [multiMsgs]) (by simp [multiMsgs]) h30
  obtain ⟨rfl, h50⟩ := multi_inj u u' _ _ hr hr' h40
  exact ⟨rfl, rfl, rfl, rfl, rfl, h50⟩

theorem gates_inj (gs gs' : List Gate) (r r' : List (Msg F G)) (hr : ∀ n, r.head? ≠ some (.u64 "circuit_gate_g" n))
    (hr' : ∀ n, r'.head? ≠ some (.u64 "circuit_gate_g" n)) (h : gs.flatMap gateMsgs ++ r = gs'.flatMap gateMsgs ++ r') :
    gs = gs' ∧ r = r' := by
  induction gs generalizing gs' with
  | nil =>
    cases gs' with
    | nil => exact ⟨rfl, h⟩
    | cons y ys => exact absurd (by rw [show r = _ from h]; rfl) (hr y.g)
  | cons x xs ih =>
    cases gs' with
    | nil => exact absurd (by rw [← show _ = r' from h]; rfl) (hr' x.g)
    | cons y ys =>
      obtain ⟨a, b, c, d⟩ := x
      obtain ⟨a', b', c', d'⟩ := y
      simp only [List.flatMap_cons, gateMsgs, List.cons_append, List.nil_append, List.cons.injEq, Msg.u64.injEq, true_and] at h
      obtain ⟨rfl, rfl, rfl, rfl, h10⟩ := h
      obtain ⟨e1, e2⟩ := ih ys h10
      exact ⟨by rw [e1], e2⟩

theorem layers_inj (ls ls' : List Layer) (r r' : List (Msg F G)) (hr : ∀ l n, r.head? ≠ some (.u64 l n))
    (hr' : ∀ l n, r'.head? ≠ some (.u64 l n))
    (h : ls.flatMap layerMsgs ++ r = ls'.flatMap layerMsgs ++ r') : ls = ls' ∧ r = r' := by
  have hstop : ∀ (ls : List Layer) (r : List (Msg F G)), (∀ l n, r.head? ≠ some (.u64 l n)) →
      ∀ n, (ls.flatMap layerMsgs ++ r).head? ≠ some (.u64 "circuit_gate_g" n) := by
    intro ls r hr n
    cases ls with
    | nil => exact hr _ n
    | cons l ls => simp [layerMsgs]
  induction ls generalizing ls' with
  | nil =>
    cases ls' with
    | nil => exact ⟨rfl, h⟩
    | cons y ys => exact absurd (by rw [show r = _ from h]; rfl) (hr "circuit_gate_count" y.gatesCount)
  | cons x xs ih =>
    cases ls' with
    | nil => exact absurd (by rw [← show _ = r' from h]; rfl) (hr' "circuit_gate_count" x.gatesCount)
    | cons y ys =>
      obtain ⟨a, b, gs⟩ := x
      obtain ⟨a', b', gs'⟩ := y
      simp only [List.flatMap_cons, layerMsgs, List.cons_append, List.nil_append, List.append_assoc, List.cons.injEq,
        Msg.u64.injEq, true_and] at h
      obtain ⟨rfl, rfl, h10⟩ := h
      obtain ⟨rfl, h20⟩ := gates_inj gs gs' _ _ (hstop _ _ hr) (hstop _ _ hr') h10
      obtain ⟨e1, e2⟩ := ih ys h20
      exact ⟨by rw [e1], e2⟩

/-- The digest of a circuit: two circuits have the same digest under every hash function only if they are the same, down to
the sizes of layers and the order and numbers of gates. -/
theorem C89_circuit [Nontrivial F] (name : String) (c c' : Circuit) :
    (∀ ch : Oracle F G, circuitToHash ch name c = circuitToHash ch name c') ↔ c = c' := by
  refine ⟨fun h => ?_, fun h _ => by rw [h]⟩
  have h10 := oracle_ext h
  obtain ⟨d, ls⟩ := c
  obtain ⟨d', ls'⟩ := c'
  simp only [circuitMsgs, List.cons_append, List.cons.injEq, Msg.u64.injEq, true_and] at h10
  obtain ⟨rfl, h20⟩ := h10
  obtain ⟨rfl, -⟩ := layers_inj ls ls' _ _ (by simp) (by simp) h20
  rfl

/-- The digest of Libra's and Hyrax's parameters. -/
theorem C89_params [Nontrivial F] (name : String) (p p' : Hx.Params G) :
    (∀ ch : Oracle F G, paramToHash ch name p = paramToHash ch name p') ↔ p = p' := by
  refine ⟨fun h => ?_, fun h _ => by rw [h]⟩
  have h10 := oracle_ext h
  obtain ⟨g1, g3, g4, n, gn, pg1⟩ := p
  obtain ⟨g1', g3', g4', n', gn', pg1'⟩ := p'
  simp only [paramMsgs, List.cons_append, List.cons.injEq, Msg.u64.injEq, true_and] at h10
  obtain ⟨rfl, h20⟩ := h10
  obtain ⟨rfl, rfl, rfl, rfl, rfl, -⟩ := five_inj _ _ _ _ _ _ _ _ _ _ _ _ (by simp) (by simp) h20
  rfl

/-- Digests of Libra and of Hyrax are never taken of the same stream. -/
theorem C89_separate (c c' : Circuit) (p p' : Hx.Params G) :
    (circuitMsgs "libra" c : List (Msg F G)) ≠ circuitMsgs "hyrax" c' ∧
    (paramMsgs "libra" p : List (Msg F G)) ≠ paramMsgs "hyrax" p' := by
  constructor <;> intro h <;> simp [circuitMsgs, paramMsgs] at h

/-- The digest of the parameters of Spartan's NIZK. -/
theorem C89_nizk [Nontrivial F] (p p' : SatParams G) :
    (∀ ch : Oracle F G, nizkToHash ch p = nizkToHash ch p') ↔ p = p' := by
  refine ⟨fun h => ?_, fun h _ => by rw [h]⟩
  have h10 := oracle_ext h
  obtain ⟨⟨n, gn, pg1⟩, g1, g3, g4, m⟩ := p
  obtain ⟨⟨n', gn', pg1'⟩, g1', g3', g4', m'⟩ := p'
  simp only [nizkMsgs, satMsgs, List.cons_append, List.nil_append, List.cons.injEq, Msg.u64.injEq, true_and] at h10
  obtain ⟨rfl, rfl, h20⟩ := h10
  obtain ⟨rfl, rfl, rfl, rfl, rfl, -⟩ := five_inj _ _ _ _ _ _ _ _ _ _ _ _ (by simp) (by simp) h20
  rfl

theorem pc_inj (label : String) (p p' : PcParams G) (r r' : List (Msg F G))
    (hr : ∀ g, r.head? ≠ some (.pt "MultiCommitmentParameters_generators" g))
    (hr' : ∀ g, r'.head? ≠ some (.pt "MultiCommitmentParameters_generators" g))
    (h : pcMsgs label p ++ r = pcMsgs label p' ++ r') : p = p' ∧ r = r' := by
  obtain ⟨n, gn, g1⟩ := p
  obtain ⟨n', gn', g1'⟩ := p'
  simp only [pcMsgs, List.cons_append, List.append_assoc, List.cons.injEq, Msg.u64.injEq, true_and] at h
  obtain ⟨rfl, h10⟩ := h
  obtain ⟨rfl, h20⟩ := multi_inj _ _ _ _ (by simp [multiMsgs]) (by simp [multiMsgs]) h10
  obtain ⟨rfl, h30⟩ := multi_inj _ _ _ _ hr hr' h20
  exact ⟨rfl, h30⟩

/-- The digest of the parameters of Spartan's SNARK. -/
theorem C89_snark [Nontrivial F] (p p' : SatParams G) (e e' : EvalsParams G) :
    (∀ ch : Oracle F G, snarkToHash ch p e = snarkToHash ch p' e') ↔ p = p' ∧ e = e' := by
  refine ⟨fun h => ?_, fun h _ => by rw [h.1, h.2]⟩
  have h10 := oracle_ext h
  obtain ⟨⟨n, gn, pg1⟩, g1, g3, g4, m⟩ := p
  obtain ⟨⟨n', gn', pg1'⟩, g1', g3', g4', m'⟩ := p'
  obtain ⟨ops, mem, derefs⟩ := e
  obtain ⟨ops', mem', derefs'⟩ := e'
  simp only [snarkMsgs, satMsgs, List.cons_append, List.nil_append, List.cons.injEq, Msg.u64.injEq, true_and,
    List.append_assoc (_ ++ multiMsgs _) (pcMsgs _ _) _, List.append_assoc (_ ++ pcMsgs _ _) _ _] at h10
  obtain ⟨rfl, rfl, h20⟩ := h10
  simp only [List.append_assoc] at h20
  obtain ⟨rfl, h30⟩ := multi_inj _ _ _ _ (by simp [multiMsgs]) (by simp [multiMsgs]) h20
  obtain ⟨rfl, h40⟩ := multi_inj _ _ _ _ (by simp [multiMsgs]) (by simp [multiMsgs]) h30
  obtain ⟨rfl, h50⟩ := multi_inj _ _ _ _ (by simp [multiMsgs]) (by simp [multiMsgs]) h40
  obtain ⟨rfl, h60⟩ := multi_inj _ _ _ _ (by simp [multiMsgs]) (by simp [multiMsgs]) h50
  obtain ⟨rfl, h70⟩ := multi_inj _ _ _ _ (by simp [pcMsgs]) (by simp [pcMsgs]) h60
  obtain ⟨rfl, h80⟩ := pc_inj _ _ _ _ _ (by simp [pcMsgs]) (by simp [pcMsgs]) h70
  obtain ⟨rfl, h90⟩ := pc_inj _ _ _ _ _ (by simp [pcMsgs]) (by simp [pcMsgs]) h80
  obtain ⟨rfl, h100⟩ := pc_inj _ _ _ _ _ (by simp) (by simp) h90
  exact ⟨rfl, rfl⟩

/-- The digest of the commitments to an encoded instance. -/
theorem C89_encode [Nontrivial F] (e e' : EncodeCommit G) :
    (∀ ch : Oracle F G, encodeToHash ch e = encodeToHash ch e') ↔ e = e' := by
  refine ⟨fun h => ?_, fun h _ => by rw [h]⟩
  have h10 := oracle_ext h
  obtain ⟨n, m, ops, mem⟩ := e
  obtain ⟨n', m', ops', mem'⟩ := e'
  simp only [encodeMsgs, List.cons_append, List.nil_append, List.append_assoc, List.cons.injEq, Msg.u64.injEq, true_and] at h10
  obtain ⟨rfl, rfl, h20⟩ := h10
  have hs : ∀ (l : List G) (g : G), ((l.map fun c => (Msg.pt "EncodeCommit_mem_commit" c : Msg F G)) ++
      [Msg.chal "challenge_nextround"]).head? ≠ some (.pt "EncodeCommit_ops_commit" g) := by
    intro l g
    cases l <;> simp
  obtain ⟨rfl, h30⟩ := run_inj _ (fun a b => by simp) _ _ _ _ (hs mem) (hs mem') h20
  obtain ⟨rfl, -⟩ := run_inj _ (fun a b => by simp) mem mem' _ _ (by simp) (by simp) h30
  rfl

/-- Moving a gate from one layer to the next changes the digest, for some hash function. -/
example : ∃ ch : Oracle F17 F17, circuitToHash ch "libra" ⟨3, [⟨1, 0, [⟨0, 0, 0, 0⟩, ⟨1, 1, 0, 1⟩]⟩, ⟨1, 0, []⟩]⟩ ≠
    circuitToHash ch "libra" ⟨3, [⟨1, 0, [⟨0, 0, 0, 0⟩]⟩, ⟨1, 0, [⟨1, 1, 0, 1⟩]⟩]⟩ := by
  by_contra h
  push Not at h
  have := (C89_circuit (F := F17) (G := F17) "libra" _ _).1 h
  simp at this

/-- So does moving a generator from one set to the next. -/
example : ∃ ch : Oracle F17 F17, encodeToHash ch ⟨2, 2, [1, 2], [3]⟩ ≠ encodeToHash ch ⟨2, 2, [1], [2, 3]⟩ := by
  by_contra h
  push Not at h
  have := (C89_encode (F := F17) (G := F17) _ _).1 h
  simp at this

/-- Parameters with the generators `1`, `2` and `3` in one set, or with the third in the next. -/
example : ∃ ch : Oracle F17 F17,
    paramToHash ch "hyrax" ⟨⟨1, [1], 0⟩, ⟨3, [1, 2, 3], 0⟩, ⟨4, [], 0⟩, ⟨1, ⟨1, [], 0⟩, ⟨1, [], 0⟩⟩⟩ ≠
    paramToHash ch "hyrax" ⟨⟨1, [1], 0⟩, ⟨3, [1, 2], 0⟩, ⟨4, [3], 0⟩, ⟨1, ⟨1, [], 0⟩, ⟨1, [], 0⟩⟩⟩ := by
  by_contra h
  push Not at h
  have := (C89_params (F := F17) (G := F17) "hyrax" _ _).1 h
  simp at this

end Zkp.Digest
