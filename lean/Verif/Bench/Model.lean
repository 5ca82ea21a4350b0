import Verif.Hankel.Model
import Verif.Quantile.Model

/-!
Model of `pyforecaster/forecasting_models/benchmarks.py`. Tables are lists of columns, as in `Verif.Hankel`. The row cap and
`scengen.fit` inside `ScenarioGenerator.fit` are not part of this model (`Verif.Subsample`), nor is conditioning to the
hour (`Verif.Quantile`): `conditional_to_hour=False`, the default of these classes.
-/

namespace PyF.Bench
open PyF.Hankel PyF.Quantile

/-- `Persistent.predict`, L20-22: the column of step `j`. -/
def persistPredict (nsa : Nat) (x : List ℚ) : List (List ℚ) := List.replicate nsa x

/-- `y.values - preds.values`, `forecaster.py` L216; shapes must agree (`ValueError`). -/
def subCols (y p : List (List ℚ)) : Except PyErr (List (List ℚ)) :=
  if y.map List.length = p.map List.length then .ok (List.zipWith (List.zipWith (· - ·)) y p) else .error .valueError

/-- `np.quantile(errs, q_vect, axis=0).T`, `forecaster.py` L209: per column the list of its quantiles. -/
def quantileCols (qv : List ℚ) (errs : List (List ℚ)) : Except PyErr (List (List ℚ)) :=
  if qv.any (fun q => q < 0 || 1 < q) then .error .valueError
  else if errs.any (fun c => c.isEmpty) then .error .indexError
  else .ok (errs.map (fun c => qv.map (quantileVal c)))

/-- `x_val.iloc[:-n_sa]`. -/
def dropTail (n : Nat) (x : List ℚ) : List ℚ := if n = 0 then [] else x.take (x.length - n)

/-- The part of `Persistent.fit` (L14-18) and `SeasonalPersistent.fit` (L45-50 of benchmarks.py) after the split: the error table, from the
validation values of the target and the point forecast. -/
def fitErrs (predict : List ℚ → Except PyErr (List (List ℚ))) (nsa : Nat) (yval : List ℚ) : Except PyErr (List (List ℚ)) :=
  match hankel (yval.drop 1) nsa none with
  | .error e => .error e
  | .ok t =>
    match predict (dropTail nsa yval) with
    | .error e => .error e
    | .ok p => subCols t p

/-- `err_distr` after `fit`. -/
def fitDistr (predict : List ℚ → Except PyErr (List (List ℚ))) (nsa : Nat) (qv yval : List ℚ) : Except PyErr (List (List ℚ)) :=
  match fitErrs predict nsa yval with
  | .error e => .error e
  | .ok errs => quantileCols qv errs

/-- `_predict_quantiles` of one row, L24-32 and L57-65: step `j`, all levels. -/
def addDistr (distr : List (List ℚ)) (forecast : List ℚ) : List (List ℚ) :=
  List.zipWith (fun (p : ℚ) (es : List ℚ) => es.map (fun e => p + e)) forecast distr

/-- `x.iloc[-s:]`, L48 (`s = 0` takes everything). -/
def lastN (s : Nat) (x : List ℚ) : List ℚ := if s = 0 then x else x.drop (x.length - s)

/-- `SeasonalPersistent.predict`, L52-55: `ValueError` when the table has fewer rows than the index. -/
def seasPredict (state : List ℚ) (nsa : Nat) (x : List ℚ) : Except PyErr (List (List ℚ)) :=
  match hankel (state ++ x) nsa none with
  | .error e => .error e
  | .ok t =>
    if (state ++ x).length + 1 - nsa < x.length then .error .valueError
    else .ok (t.map (fun c => c.take x.length))

/-- `SeasonalPersistent.fit`, L45-50: the state and the error distribution. -/
def seasFit (s nsa : Nat) (qv xtr yval : List ℚ) : Except PyErr (List ℚ × List (List ℚ)) :=
  match fitDistr (seasPredict (lastN s xtr) nsa) nsa qv yval with
  | .error e => .error e
  | .ok d => .ok (lastN s xtr, d)

/-! ### DiscreteDistr -/

/-- One training row: time of day (floored to the sampling time) and the targets. -/
structure DRow (K : Type) (T : Nat) where
  key : K
  y : Fin T → ℚ

variable {K : Type} [DecidableEq K] {T : Nat}

/-- `np.unique(y.values)`, L85. -/
def support (rows : List (DRow K T)) : List ℚ :=
  ((rows.flatMap (fun r => List.ofFn r.y)).dedup).insertionSort (· ≤ ·)

/-- `1e-12`. -/
def eps : ℚ := 1 / 1000000000000

/-- `np.sum(x==v)` in the group of `k`, L95. -/
def countIn (rows : List (DRow K T)) (k : K) (j : Fin T) (v : ℚ) : Nat :=
  (rows.filter (fun r => r.key = k)).countP (fun r => r.y j = v)

/-- L102-103 and L120-125: the probability of value `v` for target `j` at time of day `k`; NaN for a time of day without a
training row. -/
def prob (rows : List (DRow K T)) (k : K) (j : Fin T) (v : ℚ) : Option ℚ :=
  if rows.any (fun r => r.key = k) then
    some ((countIn rows k j v : ℚ) / (((support rows).map (fun w => (countIn rows k j w : ℚ))).sum + eps))
  else none

/-- `predict`, L111-112: probabilities times support, summed per target; pandas' `sum` skips NaN. -/
def discPredict (rows : List (DRow K T)) (k : K) (j : Fin T) : ℚ :=
  ((support rows).map (fun v => match prob rows k j v with | some p => p * v | none => 0)).sum

end PyF.Bench
