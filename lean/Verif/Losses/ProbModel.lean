import Verif.Losses.Model

/-!
Training loss of the probabilistic `StructuredPICNN` with the default kind and distribution:
pyforecaster/forecasting_models/neural_models/ICNN.py L42-53, pyforecaster/forecasting_models/neural_models/base_nn.py L48-57, L85.

Simplifications: those of `Model.lean`; a variance of zero or less makes the loss infinite or NaN, both `none`.
-/

namespace PyF.Losses

variable {n d : ℕ}

/-- `probabilistic_loss` with `kind='maximum_likelihood'` and `distribution='normal'`, base_nn.py L50-52, L57, L85. -/
noncomputable def likelihoodLoss (yHat y sigmaSquare : Fin n → ℝ) : Option ℝ :=
  if ∃ i, sigmaSquare i ≤ 0 then none
  else some (mean (fun i => (yHat i - y i) ^ 2 / sigmaSquare i + Real.log (sigmaSquare i)))

/-- `out[:, :-1]`, ICNN.py L44. -/
def outMean (out : Fin n → Fin (d + 1) → ℝ) : Fin n → Fin d → ℝ := fun i j => out i j.castSucc

/-- `out[:, -1]`, ICNN.py L45. -/
def outVar (out : Fin n → Fin (d + 1) → ℝ) : Fin n → ℝ := fun i => out i (Fin.last d)

/-- `structured_probabilistic_loss_fn`, ICNN.py L42-53, from the output of the network on the batch. -/
noncomputable def structuredProbLoss (objective : (Fin n → Fin d → ℝ) → Fin n → ℝ) (out : Fin n → Fin (d + 1) → ℝ)
    (targets : Fin n → Fin d → ℝ) : Option ℝ :=
  let objsHat := objective (outMean out)
  let objs := objective targets
  (likelihoodLoss objsHat objs (outVar out)).bind (fun l =>
    (monotonicRight objsHat objs).map (fun m => mse (outMean out) targets + m + l))

/-- The last two operations on the variance in `PICNN_module.__call__`, ICNN.py L161: `nn.softplus(sigma) + 1e-10`. -/
noncomputable def softVar (v : ℝ) : ℝ := Real.log (1 + Real.exp v) + 1 / 10 ^ 10

end PyF.Losses
