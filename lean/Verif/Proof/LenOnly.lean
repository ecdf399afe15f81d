/- Steps whose result depends on the transcript only through its length, if the challenges were fixed beforehand: the
second half of the SNARK prover of Spartan. -/
import Verif.Proof.HidingRun
import Verif.Model.SpartanSnarkProver

namespace Zkp.Cp

open Zkp.Ml Zkp.Spartan Zkp.Sc

set_option linter.unusedSectionVars false
set_option linter.unusedSimpArgs false

variable {F : Type} [Field F] {G : Type} [AddCommGroup G] [Module F G] [DecidableEq F] [DecidableEq G]

/-- From transcripts of the same length the step fails in the same way, or gives the same result and transcripts of the
same length. -/
def LenOnly {α : Type} (m : Vf F G α) : Prop :=
  ∀ tr tr' : Transcript F G, tr.length = tr'.length → (∃ e, m tr = .error e ∧ m tr' = .error e) ∨
    ∃ a t t', m tr = .ok (a, t) ∧ m tr' = .ok (a, t') ∧ t.length = t'.length

theorem LenOnly.bind {α β : Type} {m : Vf F G α} {f : α → Vf F G β} (h : LenOnly m) (hf : ∀ a, LenOnly (f a)) :
    LenOnly (m >>= f) := by
  intro tr tr' hl
  rcases h tr tr' hl with ⟨e, h1, h2⟩ | ⟨a, t, t', h1, h2, h3⟩
  · left
    refine ⟨e, ?_, ?_⟩
    · show StateT.bind m f tr = _
      simp only [StateT.bind, h1]; rfl
    · show StateT.bind m f tr' = _
      simp only [StateT.bind, h2]; rfl
  · have e1 : (m >>= f) tr = f a t := by
      show StateT.bind m f tr = _
      simp only [StateT.bind, h1]; rfl
    have e2 : (m >>= f) tr' = f a t' := by
      show StateT.bind m f tr' = _
      simp only [StateT.bind, h2]; rfl
    rw [e1, e2]
    exact hf a t t' h3

theorem LenOnly.pure {α : Type} (a : α) : LenOnly (Pure.pure a : Vf F G α) :=
  fun tr tr' h => .inr ⟨a, tr, tr', rfl, rfl, h⟩

theorem LenOnly.throw {α : Type} (e : Stop) : LenOnly (MonadExcept.throw e : Vf F G α) :=
  fun _ _ _ => .inl ⟨e, rfl, rfl⟩

theorem LenOnly.say (m : Msg F G) : LenOnly (Spartan.say m) :=
  fun tr tr' h => .inr ⟨(), tr ++ [m], tr' ++ [m], rfl, rfl, by simp [h]⟩

theorem LenOnly.challenge {ch : Oracle F G} (ho : Oblivious ch) (l : String) : LenOnly (Spartan.challenge ch l) := by
  intro tr tr' h
  have hl : (tr ++ [Msg.chal l]).length = (tr' ++ [Msg.chal l]).length := by simp [h]
  refine .inr ⟨ch (tr ++ [.chal l]), tr ++ [.chal l], tr' ++ [.chal l], rfl, ?_, hl⟩
  rw [ho _ _ hl]
  rfl

theorem LenOnly.ensure (s : Stop) (b : Bool) : LenOnly (Spartan.ensure s b : Vf F G Unit) := by
  cases b
  · exact LenOnly.throw s
  · exact LenOnly.pure ()

theorem LenOnly.orPanic {α : Type} (o : Option α) : LenOnly (Spartan.orPanic o : Vf F G α) := by
  cases o
  · exact LenOnly.throw _
  · exact LenOnly.pure _

theorem LenOnly.challenges {ch : Oracle F G} (ho : Oblivious ch) (l : String) (n : Nat) :
    LenOnly (Spartan.challenges ch l n) := by
  induction n with
  | zero => exact LenOnly.pure _
  | succ n ih => exact (LenOnly.challenge ho l).bind fun _ => ih.bind fun _ => LenOnly.pure _

theorem LenOnly.packCommit (g : List G) (h : G) (values blinds : List F) : LenOnly (Cp.packCommit g h values blinds) :=
  (LenOnly.ensure _ _).bind fun _ => (LenOnly.ensure _ _).bind fun _ => LenOnly.pure _

theorem LenOnly.combineRows (poly blindPoly ry : List F) : LenOnly (G := G) (Cp.combineRows poly blindPoly ry) :=
  (LenOnly.ensure _ _).bind fun _ => (LenOnly.ensure _ _).bind fun _ => (LenOnly.ensure _ _).bind fun _ => LenOnly.pure _

theorem LenOnly.bulletLoop {ch : Oracle F G} (ho : Oblivious ch) (q h : G) (k : Nat) :
    ∀ (g : List G) (a b : List F) (blind : F) (blinds : List (F × F)),
      LenOnly (Cp.bulletLoop ch q h k g a b blind blinds) := by
  induction k with
  | zero =>
    intro g a b blind blinds
    exact (LenOnly.ensure _ _).bind fun _ => (LenOnly.orPanic _).bind fun _ => (LenOnly.orPanic _).bind fun _ =>
      (LenOnly.orPanic _).bind fun _ => LenOnly.pure _
  | succ k ih =>
    intro g a b blind blinds
    exact (LenOnly.ensure _ _).bind fun _ => (LenOnly.orPanic _).bind fun _ => (LenOnly.say _).bind fun _ =>
      (LenOnly.say _).bind fun _ => (LenOnly.challenge ho _).bind fun _ => (LenOnly.ensure _ _).bind fun _ =>
      (ih _ _ _ _ _).bind fun _ => LenOnly.pure _

theorem LenOnly.logDot {ch : Oracle F G} (ho : Oblivious ch) (label : String) (params : PcParams G) (x : List F) (blindX : F)
    (a : List F) (y blindY d rBeta rDelta : F) (blinds : List (F × F)) :
    LenOnly (logDotProve ch label params x blindX a y blindY d rBeta rDelta blinds) :=
  (LenOnly.say _).bind fun _ => (LenOnly.say _).bind fun _ => (LenOnly.orPanic _).bind fun _ =>
    ((LenOnly.ensure _ _).bind fun _ => (LenOnly.ensure _ _).bind fun _ => LenOnly.bulletLoop ho _ _ _ _ _ _ _ _).bind fun _ =>
    (LenOnly.say _).bind fun _ => (LenOnly.say _).bind fun _ => (LenOnly.challenge ho _).bind fun _ => LenOnly.pure _

theorem LenOnly.inner {ch : Oracle F G} (ho : Oblivious ch) (params : PcParams G) (poly blindPoly ry : List F)
    (ryBlind eval d rDelta rBeta : F) (blinds : List (F × F)) :
    LenOnly (innerProductProve ch params poly blindPoly ry ryBlind eval d rDelta rBeta blinds) :=
  (LenOnly.say _).bind fun _ => (LenOnly.combineRows _ _ _).bind fun _ =>
    (LenOnly.logDot ho _ _ _ _ _ _ _ _ _ _ _).bind fun _ => LenOnly.pure _

theorem LenOnly.plainRounds {T : Type} {ch : Oracle F G} (ho : Oblivious ch) (label : String)
    (round : T → F → Option (List F)) (fold : T → F → Option T) (n : Nat) :
    ∀ (claim : F) (t : T), LenOnly (Sc.plainRounds ch label round fold n claim t) := by
  induction n with
  | zero => intro claim t; exact LenOnly.pure _
  | succ n ih =>
    intro claim t
    unfold Sc.plainRounds
    repeat' first
      | exact LenOnly.pure _
      | exact ih _ _
      | refine LenOnly.bind ?_ fun _ => ?_
      | exact LenOnly.say _
      | exact LenOnly.challenge ho _
      | exact LenOnly.orPanic _
      | exact LenOnly.ensure _ _

theorem LenOnly.cubic {ch : Oracle F G} (ho : Oblivious ch) (n : Nat) (claim : F) (t : Batch F) (coeffs : List F) :
    LenOnly (cubicProver ch n claim t coeffs) :=
  (LenOnly.plainRounds ho _ _ _ _ _ _).bind fun _ => (LenOnly.orPanic _).bind fun _ => (LenOnly.orPanic _).bind fun _ =>
    (LenOnly.orPanic _).bind fun _ => (LenOnly.orPanic _).bind fun _ => (LenOnly.orPanic _).bind fun _ =>
    (LenOnly.orPanic _).bind fun _ => LenOnly.pure _

theorem LenOnly.sayPairs (l1 l2 : String) (xs : List F) : ∀ ys : List F, LenOnly (G := G) (Spartan.sayPairs l1 l2 xs ys) := by
  induction xs with
  | nil => intro ys; cases ys <;> exact LenOnly.pure _
  | cons x xs ih =>
    intro ys
    cases ys with
    | nil => exact LenOnly.pure _
    | cons y ys => exact (LenOnly.say _).bind fun _ => (LenOnly.say _).bind fun _ => ih _

theorem LenOnly.sayTriples (xs : List F) : ∀ ys zs : List F, LenOnly (G := G) (Spartan.sayTriples xs ys zs) := by
  induction xs with
  | nil => intro ys zs; exact LenOnly.pure _
  | cons x xs ih =>
    intro ys zs
    cases ys with
    | nil => exact LenOnly.pure _
    | cons y ys =>
      cases zs with
      | nil => exact LenOnly.pure _
      | cons z zs =>
        exact (LenOnly.say _).bind fun _ => (LenOnly.say _).bind fun _ => (LenOnly.say _).bind fun _ => ih _ _

theorem LenOnly.memClaims (name : String) (c : MemClaims F) : LenOnly (G := G) (Spartan.memClaims name c) :=
  (LenOnly.ensure _ _).bind fun _ => (LenOnly.say _).bind fun _ => (LenOnly.say _).bind fun _ => (LenOnly.say _).bind fun _ =>
    LenOnly.say _

theorem LenOnly.dotpClaims (xs : List F) : ∀ ys zs : List F, LenOnly (G := G) (Spartan.dotpClaims xs ys zs) := by
  induction xs with
  | nil => intro ys zs; exact LenOnly.pure _
  | cons x xs ih =>
    intro ys zs
    cases ys with
    | nil => exact LenOnly.pure _
    | cons y ys =>
      cases zs with
      | nil => exact LenOnly.pure _
      | cons z zs =>
        exact (LenOnly.ensure _ _).bind fun _ => (LenOnly.say _).bind fun _ => (LenOnly.say _).bind fun _ =>
          (ih _ _).bind fun _ => LenOnly.pure _

theorem LenOnly.layers {ch : Oracle F G} (ho : Oblivious ch) (circuits : List (ProductCircuit F)) (dotps : List (Dotp F))
    (k : Nat) : ∀ claims rands : List F, LenOnly (Spartan.layersProve ch circuits dotps k claims rands) := by
  induction k with
  | zero => intro claims rands; exact LenOnly.pure _
  | succ i ih =>
    intro claims rands
    exact (LenOnly.orPanic _).bind fun _ => (LenOnly.orPanic _).bind fun _ => (LenOnly.ensure _ _).bind fun _ =>
      (LenOnly.ensure _ _).bind fun _ => (LenOnly.orPanic _).bind fun _ => (LenOnly.challenges ho _ _).bind fun _ =>
      (LenOnly.cubic ho _ _ _ _).bind fun _ => (LenOnly.sayPairs _ _ _ _).bind fun _ => (LenOnly.sayTriples _ _ _).bind fun _ =>
      (LenOnly.challenge ho _).bind fun _ => (ih _ _).bind fun _ => LenOnly.pure _

theorem LenOnly.circuit {ch : Oracle F G} (ho : Oblivious ch) (circuits : List (ProductCircuit F)) (dotps : List (Dotp F)) :
    LenOnly (circuitEvalProve ch circuits dotps) :=
  (LenOnly.orPanic _).bind fun _ => (LenOnly.orPanic _).bind fun _ => (LenOnly.layers ho _ _ _ _ _).bind fun _ => LenOnly.pure _

theorem LenOnly.product {ch : Oracle F G} (ho : Oblivious ch) (vals eRow eCol : List (List F)) (row col : MemoryLayer F)
    (evals : List F) : LenOnly (productLayerProve ch vals eRow eCol row col evals) :=
  (LenOnly.say _).bind fun _ => (LenOnly.orPanic _).bind fun _ => (LenOnly.memClaims _ _).bind fun _ =>
    (LenOnly.orPanic _).bind fun _ => (LenOnly.memClaims _ _).bind fun _ => (LenOnly.ensure _ _).bind fun _ =>
    (LenOnly.ensure _ _).bind fun _ => (LenOnly.ensure _ _).bind fun _ => (LenOnly.ensure _ _).bind fun _ =>
    (LenOnly.dotpClaims _ _ _).bind fun _ => (LenOnly.circuit ho _ _).bind fun _ => (LenOnly.circuit ho _ _).bind fun _ =>
    LenOnly.pure _

theorem LenOnly.fold {ch : Oracle F G} (ho : Oblivious ch) (l1 l2 : String) (evals : List F) :
    LenOnly (foldEvals ch l1 l2 evals) := by
  refine (LenOnly.say _).bind fun _ => (LenOnly.challenges ho _ _).bind fun _ => (LenOnly.orPanic _).bind fun out => ?_
  match out with
  | [] => exact LenOnly.throw _
  | [e] => exact LenOnly.pure _
  | _ :: _ :: _ => exact LenOnly.throw _

theorem LenOnly.openProve {ch : Oracle F G} (ho : Oblivious ch) (params : PcParams G) (label : String) (cs rands : List F)
    (e : F) (poly : List F) (rand : OpenRand F) : LenOnly (Spartan.openProve ch params label cs rands e poly rand) :=
  (LenOnly.say _).bind fun _ => (LenOnly.inner ho _ _ _ _ _ _ _ _ _ _).bind fun _ => LenOnly.pure _

theorem LenOnly.hash {ch : Oracle F G} (ho : Oblivious ch) (params : EvalsParams G) (enc : EncodeMemory F)
    (opsRands memRands : List F) (eRow eCol : List (List F)) (eAll : List F) (r1 r2 r3 : OpenRand F) :
    LenOnly (hashLayerProve ch params enc opsRands memRands eRow eCol eAll r1 r2 r3) :=
  (LenOnly.say _).bind fun _ => (LenOnly.orPanic _).bind fun _ => (LenOnly.orPanic _).bind fun _ =>
    (LenOnly.ensure _ _).bind fun _ => (LenOnly.say _).bind fun _ => (LenOnly.fold ho _ _ _).bind fun _ =>
    (LenOnly.openProve ho _ _ _ _ _ _ _).bind fun _ => (LenOnly.orPanic _).bind fun _ => (LenOnly.orPanic _).bind fun _ =>
    (LenOnly.orPanic _).bind fun _ => (LenOnly.fold ho _ _ _).bind fun _ => (LenOnly.openProve ho _ _ _ _ _ _ _).bind fun _ =>
    (LenOnly.fold ho _ _ _).bind fun _ => (LenOnly.openProve ho _ _ _ _ _ _ _).bind fun _ => LenOnly.pure _

/-- The argument about the matrices. -/
theorem LenOnly.sparse {ch : Oracle F G} (ho : Oblivious ch) (params : EvalsParams G) (rx ry : List F) (evals : F × F × F)
    (enc : EncodeMemory F) (r1 r2 r3 : OpenRand F) : LenOnly (sparseEvalProve ch params rx ry evals enc r1 r2 r3) :=
  (LenOnly.say _).bind fun _ => (LenOnly.orPanic _).bind fun _ => (LenOnly.orPanic _).bind fun _ =>
    (LenOnly.packCommit _ _ _ _).bind fun _ => (LenOnly.say _).bind fun _ => (LenOnly.challenge ho _).bind fun _ =>
    (LenOnly.challenge ho _).bind fun _ => (LenOnly.orPanic _).bind fun _ => (LenOnly.orPanic _).bind fun _ =>
    (LenOnly.product ho _ _ _ _ _ _).bind fun _ => (LenOnly.hash ho _ _ _ _ _ _ _ _ _ _).bind fun _ => LenOnly.pure _

end Zkp.Cp
