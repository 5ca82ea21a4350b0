import Verif.Quantile.Model

/-!
Model of `pyforecaster/forecasting_models/statsmodels_wrapper.py`. The statsmodels result object is an arbitrary type with
`append` (which may fail), `apply` and `forecast`; the estimation of the parameters is not modelled. `Timed` adds what
statsmodels does with time stamps: `append` only takes the observation right after the data it has, `apply` takes any
observation and starts again from the fitted parameters.
-/

namespace PyF.Statsmodels
open PyF

/-- What the wrapper uses of a statsmodels results object; `O` is the type of the rows `y_te.iloc[[i]]`. -/
structure Lib (M O : Type) where
  append : M → O → Option M
  apply : M → O → M
  forecast : M → Nat → List ℚ

/-- The body of the loop after the forecast, L13-17: `append`, or `apply` if that raised. -/
def update {M O : Type} (L : Lib M O) (m : M) (y : O) : M :=
  match L.append m y with
  | some m' => m'
  | none => L.apply m y

/-- `get_forecasts`, L8-18: forecast first, then update with the row's observation. -/
def getForecasts {M O : Type} (L : Lib M O) (n : Nat) : M → List O → List (List ℚ)
  | _, [] => []
  | m, y :: ys => L.forecast m n :: getForecasts L n (update L m y) ys

/-- The residuals of step `j` in `fit`, L35-39: `hankel(y[1:], n_sa)[i, j] - preds[i, j]` for the rows but the last `n_sa`. -/
def residuals (n : Nat) (y : List ℚ) (preds : List (List ℚ)) (j : Nat) : List ℚ :=
  (List.range (y.length - n)).map (fun (i : Nat) => y.getD (i + 1 + j) 0 - (preds.getD i []).getD j 0)

/-- Row `j` of `err_distr`, L40; `val` reads the target of a row. -/
def errDistr {M O : Type} (L : Lib M O) (val : O → ℚ) (n : Nat) (m : M) (y : List O) (q : ℚ) (j : Nat) : ℚ :=
  Quantile.quantileVal (residuals n (y.map val) (getForecasts L n m y) j) q

/-- Entry of `_predict_quantiles`, L47-49: row `i`, step `j`, level `q` on input `z` after a fit on `y` with fitted model `m`. -/
def predictQuantile {M O : Type} (L : Lib M O) (val : O → ℚ) (n : Nat) (m : M) (y z : List O) (q : ℚ) (i j : Nat) : ℚ :=
  ((getForecasts L n m z).getD i []).getD j 0 + errDistr L val n m y q j

/-- A results object with a regular time index: `next` is the stamp after its last observation, `extend` the filter step of
`append`, `restart` the object made by `apply`. -/
structure Timed (M : Type) where
  next : M → ℤ
  extend : M → ℚ → M
  restart : M → ℤ → ℚ → M
  forecast : M → Nat → List ℚ

/-- L13-17 with time stamps: `append` raises unless the row's stamp is the next one. -/
def Timed.lib {M : Type} (T : Timed M) : Lib M (ℤ × ℚ) where
  append := fun m o => if o.1 = T.next m then some (T.extend m o.2) else none
  apply := fun m o => T.restart m o.1 o.2
  forecast := T.forecast

/-- The target of a frame after `asfreq`, L54 and L61: values `y` at the stamps `t0, t0 + 1, …`. -/
def frame (t0 : ℤ) : List ℚ → List (ℤ × ℚ)
  | [] => []
  | y :: ys => (t0, y) :: frame (t0 + 1) ys

end PyF.Statsmodels
