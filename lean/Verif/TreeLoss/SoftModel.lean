import Verif.TreeLoss.Model
import Mathlib.Analysis.SpecialFunctions.Exp

/-!
Model of the function `metric_loss` of the module (`pyforecaster/tree_builders.py` L273-283), not to be confused with the method of the same name (L127-133). Exact real numbers.
-/

namespace PyF.TreeLoss

variable {n L N T : Nat}

/-- `jnp.exp(80/(1 + dists))`, L280. -/
noncomputable def expDist (idx : Fin T → Fin L → Fin n) (scens : Fin T → Fin N → ℝ) (v : Fin n → ℝ) (k : Fin N) (p : Fin L) : ℝ :=
  Real.exp (80 / (1 + dist idx scens v k p))

/-- `expdists / jnp.sum(expdists)`, L281. -/
noncomputable def softWeight (idx : Fin T → Fin L → Fin n) (scens : Fin T → Fin N → ℝ) (v : Fin n → ℝ) (k : Fin N) (p : Fin L) : ℝ :=
  expDist idx scens v k p / ∑ q, expDist idx scens v k q

/-- `metric_loss` of the module, L274-283. -/
noncomputable def softLoss (idx : Fin T → Fin L → Fin n) (scens : Fin T → Fin N → ℝ) (v : Fin n → ℝ) : ℝ :=
  ∑ k, ∑ p, softWeight idx scens v k p * dist idx scens v k p

end PyF.TreeLoss
