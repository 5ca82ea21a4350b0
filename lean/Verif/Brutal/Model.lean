import Verif.Tune.Model
import Verif.Boost.Model
import Verif.Quantile.Model

/-!
`BrutalRegressor` with its choice of features: pyforecaster/forecasting_models/random_fourier_features.py L18-121.

Values are exact; NaN is `none`. Simplifications: one target; the bootstrap rows of every iteration (L98) and the inner cuts of a feature (`np.quantile`, L81) are
parameters, the cuts a function of the values of the feature in the bootstrap rows, that of the code being `cutsOf`; scores are compared before the square root (L56); plots and messages are
left out; `fit` is called on a new object.
-/

namespace PyF.Brutal

open PyF PyF.Tune PyF.Boost

/-- A row of features, by position. -/
abbrev Row := ℕ → ℚ

/-- Subtraction with NaN. -/
def osub (a b : Option ℚ) : Option ℚ := a.bind (fun x => b.map (fun y => x - y))

/-- Mean with NaN; NaN for an empty list, L32-42 (`y_means[j, :] = np.nan`). -/
def omean (l : List (Option ℚ)) : Option ℚ := (l.mapM id).bind (fun v => if v = [] then none else some (v.sum / v.length))

/-- The bootstrap rows of one feature: value and residual, L99. -/
def bootOf (rows : List Row) (err : List (Option ℚ)) (idx : List ℕ) (f : ℕ) : List (ℚ × Option ℚ) :=
  idx.map (fun i => ((rows.getD i (fun _ => 0)) f, err.getD i none))

/-- The inner cuts, L81-83: the quantiles of `np.linspace(0, 1, n_bins + 2)` but the first and the last. -/
def cutsOf (nb : ℕ) (l : List ℚ) : List ℚ := (List.range nb).map (fun (k : ℕ) => Quantile.quantileVal l (((k : ℚ) + 1) / ((nb : ℚ) + 1)))

/-- `compute_coeffs` and `linear_response`, L18-48: the mean residual of the bin of a value. -/
def response (inner : List ℚ) (boot : List (ℚ × Option ℚ)) (x : ℚ) : Option ℚ :=
  omean ((boot.filter (fun r => binOf inner r.1 == binOf inner x)).map Prod.snd)

/-- The score of a feature, L50-57, before the square root. -/
def score (inner : List ℚ) (boot : List (ℚ × Option ℚ)) : Option ℚ :=
  omean (boot.map (fun r => (osub r.2 (response inner boot r.1)).map (fun d => d * d)))

/-- The feature chosen, L80-85: `nf` features; without features `np.vstack` raises, and so do the quantiles of nothing. -/
def bestFeature (cuts : List ℚ → List ℚ) (nf : ℕ) (rows : List Row) (err : List (Option ℚ)) (idx : List ℕ) : Except PyErr ℕ :=
  if nf = 0 then .error .valueError
  else if idx = [] then .error .indexError
  else argmin ((List.range nf).map (fun f => score (cuts ((bootOf rows err idx f).map Prod.fst)) (bootOf rows err idx f)))

/-- The response of the fitted stage to a row, L86-90, L101-103: that of its best feature. -/
def stage (cuts : List ℚ → List ℚ) (rows : List Row) (err : List (Option ℚ)) (idx : List ℕ) (f : ℕ) (x : Row) : Option ℚ :=
  response (cuts ((bootOf rows err idx f).map Prod.fst)) (bootOf rows err idx f) (x f)

/-- The residual after a stage, L103-104. -/
def residual (lr : ℚ) (rows : List Row) (err : List (Option ℚ)) (p : Row → Option ℚ) : List (Option ℚ) :=
  List.zipWith (fun e x => osub e ((p x).map (fun v => lr * v))) err rows

/-- The loop of `fit`, L97-105: the fitted stages. -/
def fit (lr : ℚ) (cuts : List ℚ → List ℚ) (nf : ℕ) (rows : List Row) : List (List ℕ) → List (Option ℚ) → Except PyErr (List (Row → Option ℚ))
  | [], _ => .ok []
  | idx :: rest, err =>
    match bestFeature cuts nf rows err idx with
    | .error e => .error e
    | .ok f =>
      match fit lr cuts nf rows rest (residual lr rows err (stage cuts rows err idx f)) with
      | .error e => .error e
      | .ok ps => .ok (stage cuts rows err idx f :: ps)

/-- The sum of `predict`, L117-120, on one row. -/
def total (lr : ℚ) (x : Row) : List (Row → Option ℚ) → Option ℚ
  | [] => some 0
  | p :: ps => (p x).bind (fun v => (total lr x ps).map (fun w => lr * v + w))

/-- `fit` on all targets there, followed by `predict` on one row, L114-121; without iterations `best_pars[0]` raises. -/
def fitPredict (lr : ℚ) (cuts : List ℚ → List ℚ) (nf : ℕ) (rows : List Row) (y : List ℚ) (idxs : List (List ℕ)) (x : Row) : Except PyErr (Option ℚ) :=
  match fit lr cuts nf rows idxs (y.map some) with
  | .error e => .error e
  | .ok [] => .error .indexError
  | .ok (p :: ps) => .ok (total lr x (p :: ps))

end PyF.Brutal
