import Verif.Recon.Model
import Mathlib.LinearAlgebra.Matrix.Trace

/-!
# Default `minT` weights

pyforecaster/reconciliation/reconciliation.py, `fit_reconciliation` L268-308 with `method='minT'` and the default `cov_method='shrunk'`, and `estimate_covariance` L334-350. scikit-learn's `ShrunkCovariance().fit(x)` is modelled exactly:
biased sample covariance of the columns, `(1 - 0.1) * cov + 0.1 * trace(cov) / p * I`, and `precision_` the pseudo-inverse (`scipy.linalg.pinvh`), which is a parameter known by the four Penrose equations only (its numerical tolerance is not
modelled). Real numbers instead of floats.
-/

namespace PyF.Recon
open PyF Matrix

/-- Mean of a column. -/
noncomputable def colMean {ι : Type} (n : Nat) (e : Nat → ι → ℝ) (i : ι) : ℝ := (∑ r ∈ Finset.range n, e r i) / n

/-- `empirical_covariance` of scikit-learn (`np.cov(X.T, bias=1)`), called from L344. -/
noncomputable def empCov {ι : Type} (n : Nat) (e : Nat → ι → ℝ) : Matrix ι ι ℝ := fun i j => (∑ r ∈ Finset.range n, (e r i - colMean n e i) * (e r j - colMean n e j)) / n

/-- `shrunk_covariance` of scikit-learn with its default `shrinkage=0.1`, called from L344. -/
noncomputable def shrunkCov {ι : Type} [Fintype ι] [DecidableEq ι] (n : Nat) (e : Nat → ι → ℝ) : Matrix ι ι ℝ :=
  (1 - 1 / 10 : ℝ) • empCov n e + (1 / 10 * (trace (empCov n e) / Fintype.card ι)) • (1 : Matrix ι ι ℝ)

/-- The routine that computes `precision_`. -/
abbrev PInv := (ι : Type) → [Fintype ι] → [DecidableEq ι] → Matrix ι ι ℝ → Matrix ι ι ℝ

/-- `errs`, L277-279: columns in the order `ordered_cols`. -/
def errsOf {N : Type} (s : Sys N) (y yhat : Nat → N → ℝ) : Nat → s.Idx → ℝ := fun r i => y r (s.name i) - yhat r (s.name i)

/-- `precision` of a step, L292 and L350. -/
noncomputable def minTWeights {N T : Type} (pinv : PInv) (n : Nat) (y yhat : T → Nat → N → ℝ) (s : Sys N) (t : T) : Matrix s.Idx s.Idx ℝ :=
  pinv s.Idx (shrunkCov n (errsOf s (y t) (yhat t)))

/-- `fit`, L157-203, for the default `method='minT'` on `n` rows (time stamps): L193 and L196 at every step. -/
noncomputable def fitMinT {N T : Type} [DecidableEq N] [DecidableEq T] (pinv : PInv) (h : Hier N) (f : Nat) (names : List N) (n : Nat) (y yhat : T → Nat → N → ℝ) (targets : List T) : Except PyErr (Fitted N T) :=
  fit h f names (minTWeights pinv n y yhat) y yhat targets

end PyF.Recon
