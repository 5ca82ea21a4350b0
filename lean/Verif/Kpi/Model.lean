import Verif.Recon.Model
import Mathlib.Data.List.Sort
import Mathlib.Analysis.Real.Sqrt

/-!
Scores and quantiles of a hierarchy: pyforecaster/reconciliation/reconciliation.py, `get_quantiles` L104-127, `get_target_matrix` L129-135, `predict_quantiles` L223-234 and
`compute_kpis` L369-385, with pyforecaster/metrics.py `rmse` L18-26, `quantile_scores` L53-95, `crps` L98-105, `reliability` L108-117 and pyforecaster/utilities.py L8-21.

Simplifications: exact values (rational; real for the root); one target (step) at a time, as the loop of `compute_kpis` treats them; the forecasts and the targets have the same rows, which are
numbered; `N` is the type of series names with the order used by `sort_index` (for mixed names: integers before strings). The forecasts and the targets belong to the same
global-form frame, so they have the same series.
-/

namespace PyF.Kpi

open PyF Recon

variable {N : Type} [LinearOrder N]

/-! ### Orders of the series -/

/-- Series of the columns of the target matrix, `get_target_matrix`, L129-135: aggregates, then the others in order of appearance. -/
def targetCols (h : Hier N) (names : List N) : List N := order h names

/-- Series of the columns of reconciled quantiles: `sort_index(axis=1)` in `predict_scenarios` (L264-267) and the group keys of `groupby(level=[0, 2])` (L230). -/
def quantileCols (h : Hier N) (names : List N) : List N := (order h names).insertionSort (· ≤ ·)

/-! ### Quantile scores: arrays by position -/

/-- `convert_multiindex_pandas_to_tensor`, utilities.py L14-21, for the columns (series, level): entry (row, series position, level position). -/
def tensor (cols : List N) (hat : N → ℕ → ℕ → ℚ) (i k a : ℕ) : ℚ :=
  match cols[k]? with
  | some n => hat n i a
  | none => 0

/-- `y_mat_s.values`, metrics.py L74-76. -/
def matrix (cols : List N) (y : N → ℕ → ℚ) (i k : ℕ) : ℚ :=
  match cols[k]? with
  | some n => y n i
  | none => 0

/-- Mean of the numbers `f 0, …, f (n - 1)`. -/
def meanN (n : ℕ) (f : ℕ → ℚ) : ℚ := ((List.range n).map f).sum / n

/-- `I`, metrics.py L77. -/
def above (e : ℚ) : ℚ := if e > 0 then 1 else 0

/-- `(I - alpha) * err_alpha`, metrics.py L78. -/
def pin (alpha e : ℚ) : ℚ := (above e - alpha) * e

/-- The entries of `qscore` for the level number `a` and the column number `k`, metrics.py L72-83 (one group of rows). -/
def qscore (r : ℕ) (H : ℕ → ℕ → ℕ → ℚ) (t : ℕ → ℕ → ℚ) (alpha : ℚ) (a k : ℕ) : ℚ := meanN r (fun i => pin alpha (H i k a - t i k))

/-- The entries of `reliability`, metrics.py L82. -/
def relscore (r : ℕ) (H : ℕ → ℕ → ℕ → ℚ) (t : ℕ → ℕ → ℚ) (a k : ℕ) : ℚ := meanN r (fun i => above (H i k a - t i k))

/-- `crps`, metrics.py L98-105: mean over the levels. -/
def crps (r : ℕ) (alphas : List ℚ) (H : ℕ → ℕ → ℕ → ℚ) (t : ℕ → ℕ → ℚ) (k : ℕ) : ℚ :=
  meanN alphas.length (fun a => qscore r H t (alphas.getD a 0) a k)

/-- `compute_kpis` for the crps of reconciled quantiles with `q` levels, L369-382: a number per series, under the names of the target matrix. Every level is read from the array: more levels in
`alphas` than in the array are an `IndexError`. -/
def crpsTable (h : Hier N) (names : List N) (r q : ℕ) (alphas : List ℚ) (hat : N → ℕ → ℕ → ℚ) (y : N → ℕ → ℚ) : Except PyErr (List (N × ℚ)) :=
  if alphas.length ≤ q then
    .ok ((List.range (targetCols h names).length).zip (targetCols h names) |>.map (fun kn =>
      (kn.2, crps r alphas (tensor (quantileCols h names) hat) (matrix (targetCols h names) y) kn.1)))
  else .error .indexError

/-- `compute_kpis` for the reliability at the level number `a`. -/
def relTable (h : Hier N) (names : List N) (r q : ℕ) (alphas : List ℚ) (hat : N → ℕ → ℕ → ℚ) (y : N → ℕ → ℚ) (a : ℕ) : Except PyErr (List (N × ℚ)) :=
  if alphas.length ≤ q then
    .ok ((List.range (targetCols h names).length).zip (targetCols h names) |>.map (fun kn =>
      (kn.2, relscore r (tensor (quantileCols h names) hat) (matrix (targetCols h names) y) a kn.1)))
  else .error .indexError

/-! ### Point scores: frames by label -/

/-- A frame: columns and entries. -/
structure Fr (N : Type) where
  cols : List N
  val : N → ℕ → ℝ

/-- The columns of the difference of two frames: those of both if they are the same list, otherwise the sorted union. -/
def subCols (a b : List N) : List N := if a = b then a else (a ++ b.filter (fun n => n ∉ a)).insertionSort (· ≤ ·)

/-- `err`, metrics.py L10-11; NaN is `none`. -/
def sub (x t : Fr N) (n : N) (i : ℕ) : Option ℝ := if n ∈ x.cols ∧ n ∈ t.cols then some (x.val n i - t.val n i) else none

/-- Mean of the available values of a column. -/
noncomputable def colMean (r : ℕ) (f : ℕ → Option ℝ) : Option ℝ :=
  if ((List.range r).filterMap f) = [] then none else some (((List.range r).filterMap f).sum / ((List.range r).filterMap f).length)

/-- `rmse`, metrics.py L18-26, for one group of rows. -/
noncomputable def rmse (r : ℕ) (x t : Fr N) : List (N × Option ℝ) :=
  (subCols x.cols t.cols).map (fun n => (n, (colMean r (fun i => (sub x t n i).map (fun e => e ^ 2))).map Real.sqrt))

/-! ### Levels of the hierarchy -/

/-- `kpi['level'] = …` and `groupby('level').mean()`, L383-385: the mean of the available values of the series with the level `d`; `none` without such a value. -/
def levelMean {K : Type} [Field K] (lv : List (N × ℕ)) (table : List (N × Option K)) (d : ℕ) : Option K :=
  match (table.filter (fun p => assigned lv p.1 = some d)).filterMap (fun p => p.2) with
  | [] => none
  | v :: vs => some ((v :: vs).sum / ((v :: vs).length : ℕ))

/-! ### Quantiles of the base forecasters -/

/-- What `predict_quantiles` of a base forecaster returns: a frame (all subclasses of `ScenarioGenerator` that do not override it), or an array of shape (rows, steps, levels) (the networks). -/
inductive QOut
  | frame
  | array (rows steps levels : ℕ)

variable {L : Type} [DecidableEq L]

/-- Labels of the columns of `from_tensor_to_pdmultiindex`, utilities.py L8-12; a frame has no third axis. -/
def fromTensor (o : QOut) (rows : ℕ) (first second : List L) : Except PyErr (List (L × L)) :=
  match o with
  | .frame => .error .indexError
  | .array r s q =>
    if (r = rows ∧ s = first.length) ∨ (min q second.length = 0) then
      if min q second.length = 0 then .error .valueError
      else .ok ((second.take q).flatMap (fun b => first.map (fun a => (b, a))))
    else .error .valueError

/-- Columns of `pd.concat({k: …}, axis=1)` over the series `ks`, L107-119: an empty dictionary is a `ValueError`. -/
def concatSeries (f : N → Except PyErr (List (L × L))) (ks : List N) : Except PyErr (List (N × L × L)) :=
  if ks = [] then .error .valueError
  else
    match ks.mapM (fun k => (f k).map (fun l => l.map (fun p => (k, p.1, p.2)))) with
    | .error e => .error e
    | .ok ls => .ok ls.flatten

/-- The levels that can be asked for, L106-125. -/
inductive Lev
  | bottom
  | aggregations
  | all
  | other

/-- `get_quantiles`, L104-127: the labels of the columns; `out k` is what the forecaster of the series `k` returns for its `rows k` rows, `steps` the labels `np.arange(steps_ahead)`. -/
def getQuantiles (h : Hier N) (names : List N) (out : N → QOut) (rows : N → ℕ) (steps levels : List L) : Lev → Except PyErr (List (N × L × L))
  | .bottom => concatSeries (fun k => fromTensor (out k) (rows k) steps levels) ((firsts names).filter (fun c => decide (c ∉ keys h)))
  | .aggregations => concatSeries (fun k => fromTensor (out k) (rows k) steps levels) (keys h)
  | .all =>
    match concatSeries (fun k => fromTensor (out k) (rows k) steps levels) ((firsts names).filter (fun c => decide (c ∉ keys h))) with
    | .error e => .error e
    | .ok b =>
      match concatSeries (fun k => fromTensor (out k) (rows k) steps levels) (keys h) with
      | .error e => .error e
      | .ok a => .ok (a ++ b)
  | .other => .error .notImplementedError

/-- Columns of the reconciled quantiles, L230: (series, step, level). -/
def reconciledCols (h : Hier N) (names : List N) (steps levels : List L) : List (N × L × L) :=
  (quantileCols h names).flatMap (fun n => steps.flatMap (fun s => levels.map (fun q => (n, s, q))))

/-- The loop of `compute_kpis`, L371-375: the entries of the second level are looked up among the targets; `none` means all are found. -/
def lookupTargets (cols : List (N × L × L)) (targets : List L) : Option PyErr :=
  if cols.all (fun c => decide (c.2.1 ∈ targets)) then none else some .keyError

end PyF.Kpi
