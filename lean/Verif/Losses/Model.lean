import Mathlib.Data.Fin.Tuple.Sort
import Mathlib.Analysis.SpecialFunctions.Log.Basic
import Mathlib.Analysis.Real.Sqrt
import Mathlib.Algebra.BigOperators.Fin

/-!
Training losses of the structured networks: pyforecaster/forecasting_models/neural_models/ICNN.py L31-40, L55-81.

Simplifications: exact real arithmetic, NaN and infinities are `none`; a batch is a function of the row number. The networks
and the user's objective are parameters: the losses are functions of what they return on the batch. The random pairs of
`monotonic_objective_relax` are a parameter.
-/

namespace PyF.Losses

variable {n d : ℕ}

/-- `jnp.mean` of a vector of length `n`. -/
noncomputable def mean (x : Fin n → ℝ) : ℝ := (∑ i, x i) / n

/-- Entries of `jnp.cov` with the default `ddof=1`. -/
noncomputable def cov (x y : Fin n → ℝ) : ℝ := (∑ i, (x i - mean x) * (y i - mean y)) / ((n : ℝ) - 1)

/-- `jnp.corrcoef(x, y)[0, 1]`; one row or a constant vector divide by zero. -/
noncomputable def corr (x y : Fin n → ℝ) : Option ℝ :=
  if n ≤ 1 ∨ cov x x = 0 ∨ cov y y = 0 then none else some (cov x y / Real.sqrt (cov x x) / Real.sqrt (cov y y))

/-- `jnp.argsort(v)`, which is stable: entry `k` is the number of the row with the `k`-th smallest value. -/
noncomputable def argsort (v : Fin n → ℝ) : Fin n → ℝ := fun k => ((Tuple.sort v k : Fin n) : ℕ)

/-- `monotonic_objective_right`, L70-73; the outer `jnp.mean` is that of one number. -/
noncomputable def monotonicRight (objsHat objs : Fin n → ℝ) : Option ℝ :=
  (corr (argsort objs) (argsort objsHat)).map (fun c => -c)

/-- `monotonic_objective_relax`, L75-81, for the sampled pairs of rows. -/
noncomputable def monotonicRelax (pairs : List (Fin n × Fin n)) (objsHat objs : Fin n → ℝ) : ℝ :=
  ((pairs.map (fun p =>
    let dd := objs p.1 - objs p.2
    let dHat := objsHat p.1 - objsHat p.2
    if dd * dHat < 0 then dd else 0)).sum) / pairs.length

/-- `jnp.mean((a - b) ** 2)` of two tables. -/
noncomputable def mse (a b : Fin n → Fin d → ℝ) : ℝ := (∑ i, ∑ j, (a i j - b i j) ^ 2) / ((n : ℝ) * d)

/-- `structured_loss_fn`, L31-40, from the predictions of the network and the user's objective of the batch. -/
noncomputable def structuredLoss (objective : (Fin n → Fin d → ℝ) → Fin n → ℝ) (predictions targets : Fin n → Fin d → ℝ) : Option ℝ :=
  let objsHat := objective predictions
  let objs := objective targets
  let objectiveLoss := mean (fun i => (objs i - objsHat i) ^ 2)
  (monotonicRight objsHat objs).map (fun m => mse predictions targets + m + objectiveLoss)

/-- `jnp.mean(ctrl_embedding**2, axis=0)`, L64. -/
noncomputable def secondMoment {k : ℕ} (e : Fin n → Fin k → ℝ) (j : Fin k) : ℝ := mean (fun i => e i j ^ 2)

/-- `kl_gaussian_loss`, L64-65; the logarithm of zero gives an infinite loss. -/
noncomputable def klLoss {k : ℕ} (e : Fin n → Fin k → ℝ) : Option ℝ :=
  if ∃ j, secondMoment e j = 0 then none
  else some (mean (fun j => secondMoment e j + mean (fun i => e i j) ^ 2 - Real.log (secondMoment e j) - 1))

/-- `embedded_loss_fn`, L55-67, from the three outputs of the network and its prediction for the reconstructed controls. -/
noncomputable def embeddedLoss {k c : ℕ} (predictions targets fromReconstr : Fin n → Fin d → ℝ) (e : Fin n → Fin k → ℝ)
    (reconstruction ctrl : Fin n → Fin c → ℝ) : Option ℝ :=
  (klLoss e).map (fun kl => mse predictions targets + mse reconstruction ctrl + kl + 100 * mse predictions fromReconstr)

end PyF.Losses
