import Verif.ReconCov.Model
import Mathlib.Probability.Distributions.Gaussian.Real
import Mathlib.Probability.CDF

/-!
Model of the covariance matrices of `HourlyGaussianCopula.fit` (`pyforecaster/copula.py` L47-64, methods `vanilla` and `shrunk`) and of `norm.cdf`
(L100), with real numbers. `e r i` is the value of column `i` in row `r` of the rows of an hour. scikit-learn's `ShrunkCovariance` is the one of
`Verif.ReconCov.Model`. For a column without variation numpy divides by zero (NaN); nothing is claimed about it. The graphical lasso is not modelled.
-/

namespace PyF.Copula
open PyF PyF.Recon

/-- `np.std(x_h.values, axis=0)`, L56. -/
noncomputable def sd {ι : Type} (n : ℕ) (e : ℕ → ι → ℝ) (i : ι) : ℝ := Real.sqrt (empCov n e i i)

/-- `np.corrcoef(x_h.T) + np.eye(self.dim)*1e-6`, L53; the normalisation of the covariance cancels. -/
noncomputable def vanilla {ι : Type} [DecidableEq ι] (n : ℕ) (e : ℕ → ι → ℝ) (i j : ι) : ℝ :=
  empCov n e i j / (sd n e i * sd n e j) + if i = j then 1 / 1000000 else 0

/-- `sh.covariance_ / np.outer(std, std)`, L55-57. -/
noncomputable def shrunk {ι : Type} [Fintype ι] [DecidableEq ι] (n : ℕ) (e : ℕ → ι → ℝ) (i j : ι) : ℝ :=
  shrunkCov n e i j / (sd n e i * sd n e j)

/-- `norm.cdf`, L100. -/
noncomputable def Phi (z : ℝ) : ℝ := ProbabilityTheory.cdf (ProbabilityTheory.gaussianReal 0 1) z

end PyF.Copula
