import Verif.Kpi.Model

/-!
The scores of one series against its own targets, over `r` rows, written as finite sums.
-/

namespace PyF.Kpi

open Finset

/-- Pinball loss. -/
def loss (alpha f y : ℚ) : ℚ := if y < f then (1 - alpha) * (f - y) else alpha * (y - f)

/-- Mean pinball loss over the rows and the levels. -/
def ownCrps (r : ℕ) (alphas : List ℚ) (f : ℕ → ℕ → ℚ) (y : ℕ → ℚ) : ℚ :=
  (∑ a ∈ range alphas.length, ∑ i ∈ range r, loss (alphas.getD a 0) (f i a) (y i)) / (alphas.length * r)

/-- Share of the rows with a target below the forecast. -/
def ownShare (r : ℕ) (f y : ℕ → ℚ) : ℚ := ((range r).filter (fun i => y i < f i)).card / r

/-- Root mean squared error. -/
noncomputable def ownRmse (r : ℕ) (f y : ℕ → ℝ) : ℝ := Real.sqrt ((∑ i ∈ range r, (f i - y i) ^ 2) / r)

end PyF.Kpi
