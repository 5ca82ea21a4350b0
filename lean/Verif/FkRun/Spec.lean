import Mathlib.Data.Real.Basic
import Mathlib.Algebra.BigOperators.Fin

/-! Vocabulary for the forecasts of `FK_multi`. -/

namespace PyF.FkRun.Spec

/-- Average of the experts' forecasts with weights proportional to `|x j|`, for every step ahead; not a number if the weights
are not numbers or all zero. -/
noncomputable def average {k : ℕ} (x : Option (Fin k → ℝ)) (p : Fin k → ℕ → ℝ) (r : Option (ℕ → ℝ)) : Prop :=
  match x with
  | none => r = none
  | some v => (∑ j, |v j| = 0 ∧ r = none) ∨ (∑ j, |v j| ≠ 0 ∧ ∃ g, r = some g ∧ ∀ s, g s * ∑ j, |v j| = ∑ j, |v j| * p j s)

/-- Every expert hit the value `y` of row `i` with all its forecasts for it. -/
def AllExact {k : ℕ} (nsa : ℕ) (p : Fin k → ℕ → ℕ → ℝ) (y : ℝ) (i : ℕ) : Prop := ∀ j, ∀ sa < nsa, p j (i - sa) sa = y

/-- Plain mean of the experts. -/
def IsMean {k : ℕ} (p : Fin k → ℕ → ℝ) (r : Option (ℕ → ℝ)) : Prop := ∃ g, r = some g ∧ ∀ s, k * g s = ∑ j, p j s

end PyF.FkRun.Spec
