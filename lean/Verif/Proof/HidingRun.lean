/- Runs of provers whose challenges were fixed beforehand: the results depend on the transcript only through its
length. For every choice of random values with one witness there is one with another witness that gives the
same messages, and different choices give different messages. -/
import Verif.Props.CommitHiding
import Verif.Proof.SumCheckHiding
import Mathlib.Tactic.Module
import Mathlib.Tactic.LinearCombination

namespace Zkp.Cp

open Zkp.Ml Zkp.Spartan Zkp.Sc

set_option linter.unusedSectionVars false
set_option linter.unusedSimpArgs false

variable {F : Type} [Field F] {G : Type} [AddCommGroup G] [Module F G] [DecidableEq F] [DecidableEq G]

/-- From every transcript of length `n` the step gives `a` and a transcript of length `n'`. -/
def Yields {α : Type} (m : Vf F G α) (n : Nat) (a : α) (n' : Nat) : Prop :=
  ∀ tr : Transcript F G, tr.length = n → ∃ tr', m tr = .ok (a, tr') ∧ tr'.length = n'

theorem Yields.bind {α β : Type} {m : Vf F G α} {f : α → Vf F G β} {n n' n'' : Nat} {a : α} {b : β}
    (h : Yields m n a n') (hf : Yields (f a) n' b n'') : Yields (m >>= f) n b n'' := by
  intro tr ht
  obtain ⟨t1, h1, l1⟩ := h tr ht
  obtain ⟨t2, h2, l2⟩ := hf t1 l1
  refine ⟨t2, ?_, l2⟩
  show StateT.bind m f tr = _
  simp only [StateT.bind, h1]
  exact h2

theorem Yields.pure {α : Type} {a : α} {n : Nat} : Yields (Pure.pure a : Vf F G α) n a n := fun tr h => ⟨tr, rfl, h⟩

theorem Yields.say {m : Msg F G} {n : Nat} : Yields (Spartan.say m) n () (n + 1) :=
  fun tr h => ⟨tr ++ [m], rfl, by simp [h]⟩

theorem Yields.challenge {ch : Oracle F G} (ho : Oblivious ch) {l : String} {n : Nat} :
    Yields (Spartan.challenge ch l) n (chalAt ch (n + 1)) (n + 1) := fun tr h =>
  ⟨tr ++ [.chal l], by
    show Except.ok (ch (tr ++ [.chal l]), tr ++ [.chal l]) = _
    rw [ho.eq]; simp [h], by simp [h]⟩

theorem Yields.ensure {s : Stop} {b : Bool} {n : Nat} (h : b = true) : Yields (Spartan.ensure s b : Vf F G Unit) n () n := by
  subst h; exact Yields.pure

theorem Yields.orPanic {α : Type} {o : Option α} {a : α} {n : Nat} (h : o = some a) :
    Yields (Spartan.orPanic o : Vf F G α) n a n := by
  subst h; exact Yields.pure

theorem Yields.unique {α : Type} {m : Vf F G α} {n n' n'' : Nat} {a b : α} (h : Yields m n a n') (h' : Yields m n b n'') :
    a = b ∧ n' = n'' := by
  obtain ⟨t1, h1, l1⟩ := h (List.replicate n (.chal "")) (by simp)
  obtain ⟨t2, h2, l2⟩ := h' (List.replicate n (.chal "")) (by simp)
  rw [h1] at h2
  obtain ⟨rfl, rfl⟩ := Prod.mk.inj (Except.ok.inj h2)
  exact ⟨rfl, l1.symm.trans l2⟩

/-- A value with the same commitment. -/
theorem Spans.blind {h : G} (hs : Spans F h) (gs : List G) (p : G) (v : List F) : ∃ b : F, commitVec gs v h b = p := by
  obtain ⟨k, hk, -⟩ := hs (p - msm gs v)
  exact ⟨k, by unfold commitVec; rw [← hk]; abel⟩

theorem Spans.blind_inj {h : G} (hs : Spans F h) {gs : List G} {v : List F} {b b' : F}
    (e : commitVec gs v h b = commitVec gs v h b') : b = b' := by
  unfold commitVec at e
  exact hs.inj (add_left_cancel e)

/-! ### The proofs about commitments -/

theorem knowledge_yields {ch : Oracle F G} (ho : Oblivious ch) (params : MultiParams G) (v b t1 t2 : F) (n : Nat) :
    Yields (knowledgeProve ch params v b t1 t2) n
      (⟨commitVec params.generators [t1] params.h t2, v * chalAt ch (n + 3) + t1, b * chalAt ch (n + 3) + t2⟩,
        commitVec params.generators [v] params.h b) (n + 3) :=
  Yields.say.bind (Yields.say.bind ((Yields.challenge ho).bind Yields.pure))

theorem knowledge_same {ch : Oracle F G} (ho : Oblivious ch) (params : MultiParams G) (v b v' b' : F)
    (he : commitVec params.generators [v] params.h b = commitVec params.generators [v'] params.h b') (t1 t2 : F) (n : Nat) :
    ∃ t1' t2' proof, Yields (knowledgeProve ch params v b t1 t2) n (proof, commitVec params.generators [v] params.h b) (n + 3) ∧
      Yields (knowledgeProve ch params v' b' t1' t2') n (proof, commitVec params.generators [v] params.h b) (n + 3) := by
  set c := chalAt ch (n + 3) with hc
  refine ⟨v * c + t1 - v' * c, b * c + t2 - b' * c, _, knowledge_yields ho params v b t1 t2 n, ?_⟩
  have := knowledge_yields ho params v' b' (v * c + t1 - v' * c) (b * c + t2 - b' * c) n
  rw [← hc] at this ⊢
  rw [he]
  rw [show v' * c + (v * c + t1 - v' * c) = v * c + t1 by ring,
    show b' * c + (b * c + t2 - b' * c) = b * c + t2 by ring] at this
  convert this using 3
  simp only [commitVec_one] at he ⊢
  linear_combination (norm := module) (-c) • he

theorem knowledge_inj {ch : Oracle F G} (ho : Oblivious ch) (params : MultiParams G) (v b t1 t2 t1' t2' : F) (n n1 n2 : Nat)
    (p : KnowProof F G) (x y : G)
    (h : Yields (knowledgeProve ch params v b t1 t2) n (p, x) n1)
    (h' : Yields (knowledgeProve ch params v b t1' t2') n (p, y) n2) : t1 = t1' ∧ t2 = t2' := by
  have e := ((knowledge_yields ho params v b t1 t2 n).unique h).1
  have e' := ((knowledge_yields ho params v b t1' t2' n).unique h').1
  have q := ((Prod.mk.inj e).1).trans ((Prod.mk.inj e').1).symm
  simp only [KnowProof.mk.injEq] at q
  exact ⟨add_left_cancel q.2.1, add_left_cancel q.2.2⟩

theorem eq_yields {ch : Oracle F G} (ho : Oblivious ch) (params : MultiParams G) (v b v2 b2 r : F) (n : Nat) :
    Yields (eqProve ch params v b v2 b2 r) n ⟨r • params.h, chalAt ch (n + 4) * (b - b2) + r⟩ (n + 4) :=
  Yields.say.bind (Yields.say.bind (Yields.say.bind ((Yields.challenge ho).bind Yields.pure)))

theorem eq_same {ch : Oracle F G} (ho : Oblivious ch) (params : MultiParams G) (hs : Spans F params.h) (v b b2 v' b' b2' : F)
    (he : commitVec params.generators [v] params.h b = commitVec params.generators [v'] params.h b')
    (he2 : commitVec params.generators [v] params.h b2 = commitVec params.generators [v'] params.h b2') (r : F) (n : Nat) :
    ∃ proof, Yields (eqProve ch params v b v b2 r) n proof (n + 4) ∧ Yields (eqProve ch params v' b' v' b2' r) n proof (n + 4) := by
  refine ⟨_, eq_yields ho params v b v b2 r n, ?_⟩
  have hb : b - b2 = b' - b2' := by
    apply hs.inj
    simp only [commitVec_one] at he he2
    linear_combination (norm := module) he - he2
  rw [hb]
  exact eq_yields ho params v' b' v' b2' r n

theorem eq_inj {ch : Oracle F G} (ho : Oblivious ch) (params : MultiParams G) (v b v2 b2 r r' : F) (n n1 n2 : Nat)
    (p : EqProof F G) (h : Yields (eqProve ch params v b v2 b2 r) n p n1)
    (h' : Yields (eqProve ch params v b v2 b2 r') n p n2) : r = r' := by
  have q := ((eq_yields ho params v b v2 b2 r n).unique h).1.trans ((eq_yields ho params v b v2 b2 r' n).unique h').1.symm
  simp only [EqProof.mk.injEq] at q
  exact add_left_cancel q.2

theorem product_yields {ch : Oracle F G} (ho : Oblivious ch) (params : MultiParams G) (x bx y b'y z bz b1 b2 b3 b4 b5 : F)
    (n : Nat) :
    Yields (productProve ch params x bx y b'y z bz b1 b2 b3 b4 b5) n
      (⟨commitVec params.generators [b1] params.h b2, commitVec params.generators [b3] params.h b4,
        commitVec [commitVec params.generators [x] params.h bx] [b3] params.h b5,
        [b1 + chalAt ch (n + 7) * x, b2 + chalAt ch (n + 7) * bx, b3 + chalAt ch (n + 7) * y,
          b4 + chalAt ch (n + 7) * b'y, b5 + chalAt ch (n + 7) * (bz - bx * y)]⟩,
        commitVec params.generators [x] params.h bx, commitVec params.generators [y] params.h b'y,
        commitVec params.generators [z] params.h bz) (n + 7) :=
  Yields.say.bind (Yields.say.bind (Yields.say.bind (Yields.say.bind (Yields.say.bind (Yields.say.bind
    ((Yields.challenge ho).bind Yields.pure))))))

theorem product_same {ch : Oracle F G} (ho : Oblivious ch) (params : MultiParams G) (x bx y b'y bz x' bx' y' b'y' bz' : F)
    (hx : commitVec params.generators [x] params.h bx = commitVec params.generators [x'] params.h bx')
    (hy : commitVec params.generators [y] params.h b'y = commitVec params.generators [y'] params.h b'y')
    (hz : commitVec params.generators [x * y] params.h bz = commitVec params.generators [x' * y'] params.h bz')
    (b1 b2 b3 b4 b5 : F) (n : Nat) :
    ∃ b1' b2' b3' b4' b5' proof, Yields (productProve ch params x bx y b'y (x * y) bz b1 b2 b3 b4 b5) n
        (proof, commitVec params.generators [x] params.h bx, commitVec params.generators [y] params.h b'y,
          commitVec params.generators [x * y] params.h bz) (n + 7) ∧
      Yields (productProve ch params x' bx' y' b'y' (x' * y') bz' b1' b2' b3' b4' b5') n
        (proof, commitVec params.generators [x] params.h bx, commitVec params.generators [y] params.h b'y,
          commitVec params.generators [x * y] params.h bz) (n + 7) := by
  set c := chalAt ch (n + 7) with hc
  refine ⟨b1 + c * x - c * x', b2 + c * bx - c * bx', b3 + c * y - c * y', b4 + c * b'y - c * b'y',
    b5 + c * (bz - bx * y) - c * (bz' - bx' * y'), _, product_yields ho params x bx y b'y (x * y) bz b1 b2 b3 b4 b5 n, ?_⟩
  have := product_yields ho params x' bx' y' b'y' (x' * y') bz' (b1 + c * x - c * x') (b2 + c * bx - c * bx')
    (b3 + c * y - c * y') (b4 + c * b'y - c * b'y') (b5 + c * (bz - bx * y) - c * (bz' - bx' * y')) n
  rw [← hc] at this ⊢
  simp only [sub_add_cancel, ← hx, ← hy, ← hz] at this
  convert this using 3
  · simp only [commitVec_one] at hx ⊢
    linear_combination (norm := module) (-c) • hx
  · simp only [commitVec_one] at hy ⊢
    linear_combination (norm := module) (-c) • hy
  · simp only [commitVec_one, List.headD_cons] at hx hz ⊢
    linear_combination (norm := module) (-c) • hz + (c * y') • hx

theorem product_inj {ch : Oracle F G} (ho : Oblivious ch) (params : MultiParams G) (x bx y b'y z bz b1 b2 b3 b4 b5
    b1' b2' b3' b4' b5' : F) (n n1 n2 : Nat) (p : ProdProof F G) (u v : G × G × G)
    (h : Yields (productProve ch params x bx y b'y z bz b1 b2 b3 b4 b5) n (p, u) n1)
    (h' : Yields (productProve ch params x bx y b'y z bz b1' b2' b3' b4' b5') n (p, v) n2) :
    b1 = b1' ∧ b2 = b2' ∧ b3 = b3' ∧ b4 = b4' ∧ b5 = b5' := by
  have e := ((product_yields ho params x bx y b'y z bz b1 b2 b3 b4 b5 n).unique h).1
  have e' := ((product_yields ho params x bx y b'y z bz b1' b2' b3' b4' b5' n).unique h').1
  have q := ((Prod.mk.inj e).1).trans ((Prod.mk.inj e').1).symm
  simp only [ProdProof.mk.injEq, List.cons.injEq, add_left_inj] at q
  exact ⟨q.2.2.2.1, q.2.2.2.2.1, q.2.2.2.2.2.1, q.2.2.2.2.2.2.1, q.2.2.2.2.2.2.2.1⟩

end Zkp.Cp
