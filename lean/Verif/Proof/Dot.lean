/- Dot products of lists, multi-scalar multiplication, and sums over lists as indexed sums. -/
import Verif.Model.Group
import Mathlib.Data.List.GetD
import Mathlib.Algebra.BigOperators.Fin
import Mathlib.Algebra.BigOperators.Intervals
import Mathlib.Algebra.Module.BigOperators
import Mathlib.Tactic.Ring
import Mathlib.Tactic.Module
import Mathlib.Tactic.LinearCombination

set_option linter.unusedSectionVars false
set_option linter.unusedSimpArgs false

namespace Zkp

variable {F : Type} [Field F]

/-- `Σ l_i · z_i` over the common length. -/
def dot (l z : List F) : F := (List.zipWith (· * ·) l z).sum

@[simp] theorem dot_nil_left (z : List F) : dot [] z = 0 := by simp [dot]
@[simp] theorem dot_nil_right (l : List F) : dot l [] = 0 := by simp [dot]
@[simp] theorem dot_cons (a : F) (l : List F) (b : F) (z : List F) :
    dot (a :: l) (b :: z) = a * b + dot l z := by simp [dot]

theorem dot_comm (l z : List F) : dot l z = dot z l := by
  unfold dot
  rw [List.zipWith_comm]
  simp only [mul_comm]

theorem dot_append {l l' z z' : List F} (h : l.length = z.length) :
    dot (l ++ l') (z ++ z') = dot l z + dot l' z' := by
  unfold dot
  rw [List.zipWith_append h, List.sum_append]

theorem dot_map_mul (l z : List F) (k : F) : dot (l.map (· * k)) z = dot l z * k := by
  induction l generalizing z with
  | nil => simp
  | cons a l ih =>
    cases z with
    | nil => simp
    | cons b z => simp only [List.map_cons, dot_cons, ih]; ring

theorem dot_replicate_zero (n : Nat) (z : List F) : dot (List.replicate n 0) z = 0 := by
  induction n generalizing z with
  | zero => simp
  | succ n ih =>
    cases z with
    | nil => simp
    | cons b z => simp [List.replicate_succ, ih]

theorem sum_map_eq {α M : Type} [AddCommMonoid M] (l : List α) (f : α → M) (d : α) :
    (l.map f).sum = ∑ i ∈ Finset.range l.length, f (l.getD i d) := by
  induction l with
  | nil => simp
  | cons a l ih =>
    rw [List.length_cons, Finset.sum_range_succ']
    simp only [List.map_cons, List.sum_cons, ih, List.getD_cons_succ, List.getD_cons_zero]
    rw [add_comm]

theorem dot_eq_sum (l z : List F) (h : l.length ≤ z.length) :
    dot l z = ∑ i ∈ Finset.range l.length, l.getD i 0 * z.getD i 0 := by
  induction l generalizing z with
  | nil => simp
  | cons a l ih =>
    cases z with
    | nil => simp at h
    | cons b z =>
      rw [List.length_cons, Finset.sum_range_succ', dot_cons, ih z (by simpa using h)]
      simp only [List.getD_cons_succ, List.getD_cons_zero]
      rw [add_comm]

variable {G : Type} [AddCommGroup G] [Module F G]

theorem msm_map (l z : List F) (g : G) : msm (l.map fun x => x • g) z = dot l z • g := by
  unfold msm dot
  induction l generalizing z with
  | nil => simp
  | cons a l ih =>
    cases z with
    | nil => simp
    | cons b z =>
      simp only [List.map_cons, List.zipWith_cons_cons, List.sum_cons, ih, add_smul, smul_smul]
      rw [mul_comm]

end Zkp
