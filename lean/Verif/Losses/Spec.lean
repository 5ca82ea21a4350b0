import Mathlib.Data.Real.Basic
import Mathlib.Algebra.BigOperators.Fin

/-! Vocabulary of the properties of the training losses. -/

namespace PyF.Losses.Spec

variable {n : ℕ}

/-- Row `i` comes before row `j` when rows are ordered by value, equal values by row number. -/
def Before (v : Fin n → ℝ) (i j : Fin n) : Prop := v i < v j ∨ (v i = v j ∧ i < j)

/-- Both vectors put the rows in the same order. -/
def SameOrder (v w : Fin n → ℝ) : Prop := ∀ i j, Before v i j ↔ Before w i j

/-- Mean zero and mean square one. -/
def Standard (x : Fin n → ℝ) : Prop := ∑ i, x i = 0 ∧ ∑ i, x i ^ 2 = n

end PyF.Losses.Spec
