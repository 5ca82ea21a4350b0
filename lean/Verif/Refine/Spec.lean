import Mathlib.Data.Rat.Defs
import Mathlib.Algebra.Order.Field.Rat
import Mathlib.Algebra.BigOperators.Fin

/-! What the refinement is checked against. -/

namespace PyF.Refine.Spec

variable {P : Type}

/-- `m` is the distance of the sample `s` to the nearest of the points. -/
def Nearest (dist : P → P → ℚ) (s : P) (A : List P) (m : ℚ) : Prop := (∃ a ∈ A, m = dist s a) ∧ ∀ a ∈ A, m ≤ dist s a

/-- `x` is the total distance of the samples to the points. -/
def Total (dist : P → P → ℚ) (A S : List P) (x : ℚ) : Prop := ∃ f : P → ℚ, (∀ s ∈ S, Nearest dist s A (f s)) ∧ x = (S.map f).sum

/-- The metric `cityblock`. -/
def cityblock {d : ℕ} (s a : Fin d → ℚ) : ℚ := ∑ j, |s j - a j|

end PyF.Refine.Spec
