import Verif.Common
import Mathlib.Algebra.Order.Field.Rat
import Mathlib.Algebra.BigOperators.Group.List.Basic

/-!
Model of the two boosting loops of `pyforecaster/forecasting_models/random_fourier_features.py`:
`AdditiveRFFRegression` L361-399 and `BrutalRegressor` L67-121 with its binned stage L18-65.

A training set is a list of feature rows `X` and a list of targets in `V` (a row of targets in the code: any type with
addition and subtraction). Stage learners are oracles: any function from the training rows and the current
residual to a predictor. Not modelled: post-fit error quantiles, the plots, the random generators.
-/

namespace PyF.Boost
open PyF

/-- A stage regressor: `m.fit(x, err)` followed by `m.predict`. -/
abbrev Learner (X V : Type) := List X → List V → X → V

section additive
variable {X V : Type} [AddCommGroup V]

/-- The loop of L379-382: fit on the residual, predict the training rows, subtract. Returns the fitted stages
and the last residual. -/
def fitLoop (rows : List X) : List (Learner X V) → List V → List (X → V) × List V
  | [], err => ([], err)
  | m :: ms, err =>
    let p := m rows err
    let r := fitLoop rows ms (List.zipWith (fun e h => e - h) err (rows.map p))
    (p :: r.1, r.2)

/-- `AdditiveRFFRegression.fit`, L373-384, without validation split: the scaler is fitted on all the rows, the
loop runs on the scaled rows. Returns the attributes `scaler`, the fitted models and the local `err`. -/
def addFit (mkScaler : List X → X → X) (ms : List (Learner X V)) (x : List X) (y : List V) :
    (X → X) × List (X → V) × List V :=
  let sc := mkScaler x
  let r := fitLoop (x.map sc) ms y
  (sc, r.1, r.2)

/-- `AdditiveRFFRegression.predict` on one row, L386-394: start from zero and add the stages in turn. -/
def addPredict (sc : X → X) (ps : List (X → V)) (x : X) : V :=
  ps.foldl (fun acc p => acc + p (sc x)) 0

end additive

section brutal
variable {X : Type}

/-- The loop of `BrutalRegressor.fit`, L97-105: `learn k` is the `k`-th call of `one_level_fit` (bootstrap
included), `lr` the learning rate. New stages are appended to `self.best_pars`. -/
def brutalLoop (lr : ℚ) (rows : List X) : List (Learner X ℚ) → List (X → ℚ) → List ℚ → List (X → ℚ) × List ℚ
  | [], best, err => (best, err)
  | m :: ms, best, err =>
    let p := m rows err
    brutalLoop lr rows ms (best ++ [p]) (List.zipWith (fun e h => e - h) err (rows.map (fun x => lr * p x)))

/-- `BrutalRegressor.predict` on one row, L114-121: `best_pars[0]` is read first, then `best_pars[i]` for
`i < n_iter`. -/
def brutalPredict (lr : ℚ) (nIter : Nat) (best : List (X → ℚ)) (x : X) : Except PyErr ℚ :=
  if best.isEmpty then .error .indexError
  else match takeRows best (List.range nIter) with
    | .error e => .error e
    | .ok ps => .ok (ps.foldl (fun acc p => acc + lr * p x) 0)

/-- The attribute `best_pars` after a history of fits; a fit is its training rows, its targets and its `n_iter` stage
learners. -/
def brutalHistory (lr : ℚ) (best : List (X → ℚ)) : List (List X × List ℚ × List (Learner X ℚ)) → List (X → ℚ)
  | [] => best
  | (rows, y, ms) :: rest => brutalHistory lr (brutalLoop lr rows ms best y).1 rest

end brutal

/-! ### The binned stage of BrutalRegressor, one feature and one target -/

/-- `np.digitize(x, cuts) - 1` with `cuts = [-inf, inner.., inf]` (L63, L81-83, L101): the number of inner
cuts that are `≤ x`. -/
def binOf (inner : List ℚ) (x : ℚ) : Nat := inner.countP (fun c => decide (c ≤ x))

/-- `compute_coeffs`, L18-44: the mean of the targets of each bin, NaN (`none`) for an empty bin. -/
def binMean (inner : List ℚ) (boot : List (ℚ × ℚ)) (j : Nat) : Option ℚ :=
  let sel := (boot.filter (fun r => binOf inner r.1 == j)).map Prod.snd
  if sel.isEmpty then none else some (sel.sum / sel.length)

/-- `linear_response`, L46-48: `y_means[x_binned]`. -/
def stagePredict (inner : List ℚ) (boot : List (ℚ × ℚ)) (x : ℚ) : Option ℚ := binMean inner boot (binOf inner x)

end PyF.Boost
