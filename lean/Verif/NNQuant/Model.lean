import Verif.Common
import Mathlib.Analysis.Real.Sqrt
import Mathlib.Data.Real.Sign
import Mathlib.Analysis.SpecialFunctions.Log.Basic
import Mathlib.Algebra.BigOperators.Group.Finset.Basic

/-!
Probabilistic networks: loss and quantiles. pyforecaster/forecasting_models/neural_models/base_nn.py L48-93, L466-506 and ICNN.py L581-646.

Simplifications: exact real arithmetic; one output column at a time (the code works elementwise); NaN is `none`; the standard normal quantile
`np.sqrt(2) * erfinv(2 * q - 1)` is a parameter `z`.
-/

namespace PyF.NNQuant

open PyF

noncomputable section

/-- `v ** 0.5` of a numpy array: NaN for negative entries. -/
def npSqrt (v : ℝ) : Option ℝ := if 0 ≤ v then some (Real.sqrt v) else none

/-- The target scaler of one column. -/
structure Scaler where
  mean : ℝ
  scale : ℝ

/-- `StandardScaler.transform`. -/
def Scaler.transform (c : Scaler) (x : ℝ) : ℝ := (x - c.mean) / c.scale

/-- `StandardScaler.inverse_transform`. -/
def Scaler.inverse (c : Scaler) (x : ℝ) : ℝ := x * c.scale + c.mean

/-- Normal maximum likelihood, base_nn.py L52: the loss of a residual, for a positive second output. -/
def mlLoss (yhat y v : ℝ) : ℝ := (yhat - y) ^ 2 / v + Real.log v

/-- ... and its mean over a batch, base_nn.py L85. -/
def mlMean (n : ℕ) (yhat y : Fin n → ℝ) (v : ℝ) : ℝ := (∑ i, mlLoss (yhat i) (y i) v) / n

/-- First half of the output in `predict`, base_nn.py L466-478: `sc` is the target scaler if `normalize_target`. -/
def muOut (sc : Option Scaler) (m : ℝ) : ℝ :=
  match sc with
  | some c => c.inverse m
  | none => m

/-- Second half of the output in `predict`, base_nn.py L466-479. -/
def sigmaOut (sc : Option Scaler) (v : ℝ) : Option ℝ :=
  match sc with
  | some c => (npSqrt v).map c.inverse
  | none => some v

/-- `predict_quantiles` of a probabilistic network at one level, base_nn.py L489-501. -/
def quantile (z : ℝ → ℝ) (sc : Option Scaler) (m v q : ℝ) : Option ℝ := (sigmaOut sc v).map (fun s => muOut sc m + s * z q)

/-- The same with `normalize=False` (used for training plots), base_nn.py L493-501. -/
def quantileRaw (z : ℝ → ℝ) (m v q : ℝ) : Option ℝ := (npSqrt v).map (fun s => m + s * z q)

/-! StructuredPICNN: one variance for the objective. -/

/-- Positive map applied to the variance output of PICNN_module, ICNN.py L161. -/
def softVar (t : ℝ) : ℝ := Real.log (1 + Real.exp t) + 1 / 10 ^ 10

/-- `sigma` returned by StructuredPICNN.predict without target normalisation, ICNN.py L595. -/
def structSigma (v : ℝ) : ℝ := Real.sign v * Real.sqrt |v|

/-- Normal quantile of the objective, ICNN.py L617-634. -/
def structNormal (z : ℝ → ℝ) (o v q : ℝ) : ℝ := o + |structSigma v| * z q

/-- Variance parameter of the log-normal, ICNN.py L636-637. -/
def lnVar (o s : ℝ) : ℝ := Real.log (1 + s ^ 2 / o ^ 2)
/-- Location parameter of the log-normal, ICNN.py L639. -/
def lnMu (o s : ℝ) : ℝ := Real.log (o ^ 2 / Real.sqrt (s ^ 2 + o ^ 2))

/-- Log-normal quantile of the objective, ICNN.py L635-644; the sign is that of the predicted variance. -/
def structLogNormal (z : ℝ → ℝ) (o v q : ℝ) : ℝ :=
  if Real.sign (structSigma v) = -1 then 2 * Real.exp (lnMu o |structSigma v|) - Real.exp (lnMu o |structSigma v| + Real.sqrt (lnVar o |structSigma v|) * z (1 - q))
  else if Real.sign (structSigma v) = 1 then Real.exp (lnMu o |structSigma v| + Real.sqrt (lnVar o |structSigma v|) * z q)
  else 0

/-- `X *= self.scale_` in `inverse_transform`, for `X` of width `k` and a scaler of `n` columns: in place, so the result must have the width of `X`. -/
def inverseShape (n k : ℕ) : Except PyErr ℕ := if k = n ∨ n = 1 then .ok k else .error .valueError

/-- StructuredPICNN.predict with `probabilistic` and `normalize_target`, ICNN.py L586-589, for `N` rows and `n` targets, shapes only: the network has `n + 1` columns; a block of
width `k` is assigned to `[:, :-1]` (width `n`, broadcast if `k = 1`) and one to `[:, -1]` (one dimension, so leading dimensions of the block must be one). -/
def structShapes (N n : ℕ) : Except PyErr Unit :=
  match inverseShape n ((n + 1) / 2) with
  | .error e => .error e
  | .ok k =>
    if k = n ∨ k = 1 then
      match inverseShape n (n + 1 - (n + 1) / 2) with
      | .error e => .error e
      | .ok k' => if N = 1 ∧ (k' = N ∨ k' = 1) then .ok () else .error .valueError
    else .error .valueError

end

end PyF.NNQuant
