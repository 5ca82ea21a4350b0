import Verif.Ols.Model

/-! Specification for the linear forecaster. -/

namespace PyF.Ols.Spec

/-- `c` makes the loss as small as any other model. -/
def IsBest {d m : ℕ} (α : ℝ) (rows : List (Row d m)) (c : Coef d m) : Prop := ∀ c' : Coef d m, loss α rows c ≤ loss α rows c'

/-- Error of the forecast of target `j` on a row. -/
noncomputable def err {d m : ℕ} (c : Coef d m) (j : Fin m) (r : Row d m) : ℝ := r.2 j - pred c r.1 j

/-- No feature is, on these rows, a combination of the others and a constant. -/
def Indep {d m : ℕ} (rows : List (Row d m)) : Prop :=
  ∀ (w : Fin d → ℝ) (b : ℝ), (∀ r ∈ rows, b + ∑ k, w k * r.1 k = 0) → b = 0 ∧ ∀ k, w k = 0

/-- Change of units of features (factor `D k`, offset `e k`) and targets (factor `c j`, offset `t j`) of a row. -/
def units {d m : ℕ} (D e : Fin d → ℝ) (c t : Fin m → ℝ) (r : Row d m) : Row d m :=
  (fun k => D k * r.1 k + e k, fun j => c j * r.2 j + t j)

/-- Target `j` is uncorrelated with every feature on the rows: `n Σ y x = Σ y Σ x`. -/
def Uncorrelated {d m : ℕ} (rows : List (Row d m)) (j : Fin m) : Prop :=
  ∀ k : Fin d, (rows.length : ℝ) * (rows.map fun r : Row d m => r.2 j * r.1 k).sum
    = (rows.map fun r : Row d m => r.2 j).sum * (rows.map fun r : Row d m => r.1 k).sum

/-- All features (the past values of the signal) and all targets (its future values) multiplied by `s`. -/
def rescale {d m : ℕ} (s : ℝ) (r : Row d m) : Row d m := (fun k => s * r.1 k, fun j => s * r.2 j)

/-- Squared error, over the targets, of forecasting row `r` by the model fitted with penalty `α` to the rows before and after it. -/
noncomputable def leftOut {d m : ℕ} (S : Solver d m) (α : ℝ) (before : List (Row d m)) (r : Row d m) (after : List (Row d m)) : ℝ :=
  ∑ j, (r.2 j - pred (S α (before ++ after)) r.1 j) ^ 2

/-- Their sum over the rows. -/
noncomputable def leftOutSum {d m : ℕ} (S : Solver d m) (α : ℝ) : List (Row d m) → List (Row d m) → ℝ
  | _, [] => 0
  | before, r :: after => leftOut S α before r after + leftOutSum S α (before ++ [r]) after

end PyF.Ols.Spec
