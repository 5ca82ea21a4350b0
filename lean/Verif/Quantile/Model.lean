import Verif.Common
import Mathlib.Data.Rat.Floor
import Mathlib.Data.List.Sort
import Mathlib.Data.List.Dedup
import Mathlib.Data.Fintype.Basic

/-!
Model of the error distribution and of the quantile predictions built on it:
`pyforecaster/forecaster.py` L197-218 (`_estimate_err_distr`, `fit`) and L351-355 / L409-413
(`_predict_quantiles` of the linear and LightGBM forecasters). Floats are exact rationals.
-/

namespace PyF.Quantile
open PyF

/-- `a[lo] + gamma * (a[hi] - a[lo])` at the virtual index `v` of a sorted sample; numpy's
`method='linear'` interpolation between the neighbouring order statistics, clipped at the last one. -/
def lerpAt (s : List ℚ) (v : ℚ) : ℚ :=
  let lo := ⌊v⌋.toNat
  let hi := min (lo + 1) (s.length - 1)
  s.getD lo 0 + (v - ⌊v⌋) * (s.getD hi 0 - s.getD lo 0)

/-- The value of `np.quantile(sample, q)` for a valid level and a non-empty sample: virtual index
`q * (n - 1)` in the sorted sample. Used by `forecaster.py` L204, L207, L209. -/
def quantileVal (sample : List ℚ) (q : ℚ) : ℚ :=
  lerpAt (sample.insertionSort (· ≤ ·)) (q * ((sample.length : ℚ) - 1))

/-- One post-fit row: the hour of its time stamp and its error vector (`T` targets),
`errs = y.values - preds.values` (L216). -/
structure ErrRow (T : Nat) where
  hour : Fin 24
  err : Fin T → ℚ

/-- Quantile table: for each target the list of error quantiles, one per level. -/
abbrev Table (T : Nat) := Fin T → List ℚ

/-- `np.quantile(errs, q_vect, axis=0).T` (L204, L207, L209): numpy first validates the levels
(`ValueError`), then fails on an empty sample (`IndexError`). -/
def quantileTable {T : Nat} (qv : List ℚ) (rows : List (ErrRow T)) : Except PyErr (Table T) :=
  if qv.any (fun q => q < 0 || 1 < q) then .error .valueError
  else if rows.isEmpty then .error .indexError
  else .ok (fun j => qv.map (quantileVal (rows.map (fun r => r.err j))))

/-- The attribute `err_distr`: `{}` before fit (L74), a dict over the 24 hours, or one table (L209). -/
inductive ErrDistr (T : Nat)
  | unfitted
  | byHour (f : Fin 24 → Table T)
  | pooled (t : Table T)

/-- The exception of a failed computation, if any. -/
def errOf {α : Type} : Except PyErr α → Option PyErr
  | .error e => some e
  | .ok _ => none

/-- Build a dict over the 24 hours in increasing order, failing on the first failing hour. -/
def forHours {T : Nat} (f : Fin 24 → Except PyErr (Table T)) : Except PyErr (Fin 24 → Table T) :=
  match (List.finRange 24).findSome? (fun h => errOf (f h)) with
  | some e => .error e
  | none => .ok (fun h => match f h with | .ok t => t | .error _ => fun _ => [])

/-- `_estimate_err_distr`, L197-209. The hours of `x.index` and of `errs.index` are the same because
`errs` is built with `index=x.index` (L216). -/
def estimateErrDistr {T : Nat} (conditional : Bool) (qv : List ℚ) (rows : List (ErrRow T)) :
    Except PyErr (ErrDistr T) :=
  if conditional then
    if (rows.map (fun r => r.hour)).dedup.length ≠ 24 then                      -- L201
      match forHours (fun _ => quantileTable qv rows) with                    -- L203-204
      | .error e => .error e
      | .ok f => .ok (.byHour f)
    else
      match forHours (fun h => quantileTable qv (rows.filter (fun r => r.hour == h))) with -- L206-207
      | .error e => .error e
      | .ok f => .ok (.byHour f)
  else
    match quantileTable qv rows with                                          -- L209
    | .error e => .error e
    | .ok t => .ok (.pooled t)

/-- A labelled training row: features, hour and observed target vector. -/
structure TrainRow (X : Type) (T : Nat) where
  x : X
  hour : Fin 24
  y : Fin T → ℚ

/-- `ScenarioGenerator.fit`, L211-218, restricted to the error distribution: `predict` is the point
forecast (an arbitrary function of the row), errors are observation minus forecast. The row cap
(`Subsample`) and `scengen.fit` are modelled elsewhere. -/
def fitErr {X : Type} {T : Nat} (predict : X → Fin T → ℚ) (conditional : Bool) (qv : List ℚ)
    (train : List (TrainRow X T)) : Except PyErr (ErrDistr T) :=
  estimateErrDistr conditional qv
    (train.map (fun r => ⟨r.hour, fun j => r.y j - predict r.x j⟩))

/-- The quantiles of one row: L352 broadcasts the point forecast over the levels, L353-354 add
`err_distr[h]` with `h` the row's hour. For the dict this is the hour's table; for the plain table
(`conditional_to_hour=False`) `err_distr[h]` is ROW `h` of the table, broadcast over all targets. -/
def rowQuantiles {T : Nat} (ed : ErrDistr T) (h : Fin 24) (p : Fin T → ℚ) :
    Except PyErr (Fin T → List ℚ) :=
  match ed with
  | .unfitted => .error .keyError
  | .byHour f => .ok (fun j => (f h j).map (fun e => p j + e))
  | .pooled t =>
    if hh : h.val < T then .ok (fun j => (t ⟨h.val, hh⟩).map (fun e => p j + e))
    else .error .indexError

/-- `_predict_quantiles`, L351-355 and L409-413, row by row (every row has exactly one hour, so the
masked in-place additions of L353-354 touch each row once). -/
def predictQuantiles {X : Type} {T : Nat} (predict : X → Fin T → ℚ) (ed : ErrDistr T)
    (rows : List (X × Fin 24)) : Except PyErr (List (Fin T → List ℚ)) :=
  rows.mapM (fun r => rowQuantiles ed r.2 (predict r.1))

end PyF.Quantile
