import Verif.Common
import Verif.Quantile.Model
import Mathlib.Data.Rat.Floor
import Mathlib.Data.List.MinMax
import Mathlib.Algebra.Order.Ring.Rat
import Mathlib.Algebra.Order.Group.Unbundled.Abs

/-!
# Data handling of the plotting utilities

pyforecaster/plot_utils.py: axis limits and frames of the animations (`ts_animation` L165-197, `plot_trees` L200-236, `ts_animation_bars` L239-277, `plot_quantiles` L280-326), ticks and labels of `plot_summary_score` (L75-123), the table of `hist_2d`
(L153-162). What matplotlib and seaborn draw is not modelled: an animation is the list of the rows it shows, limits are a pair of numbers. Rational numbers instead of floats.
-/

namespace PyF.Plots
open PyF

/-- `np.min` of the stacked arrays: an empty array is an error (L170, L204, L243). -/
def npMin : List ℚ → Except PyErr ℚ
  | [] => .error .valueError
  | x :: xs => .ok (xs.foldl min x)

/-- `np.max`, L171, L205, L244. -/
def npMax : List ℚ → Except PyErr ℚ
  | [] => .error .valueError
  | x :: xs => .ok (xs.foldl max x)

/-- Limits of the animations of time series, trees and bars, L170-171 and L180 (L204-205, L223; L243-244, L259). -/
def limits (vals : List ℚ) : Except PyErr (ℚ × ℚ) :=
  match npMin vals, npMax vals with
  | .ok lo, .ok hi => .ok (lo - |lo| * (1 / 10), hi + |hi| * (1 / 10))
  | .error e, _ => .error e
  | _, .error e => .error e

/-- Rows shown by `ts_animation`, L186 and L195: frame `i` shows row `i * step`; frames `range(min(n - 1, frames))`. -/
def tsRows (n frames step : Nat) : Except PyErr (List Nat) :=
  (List.range (min (n - 1) frames)).mapM (fun (i : Nat) => if i * step < n then .ok (i * step) else .error .indexError)

/-- `n_max`, L282. -/
def nMax (n nRows step : Nat) : Nat := min n (nRows * step)

/-- Rows shown by `plot_quantiles`, L283 and L306-309. A step of zero is a division by zero (numpy: infinity, `int` of it raises `OverflowError`, here a `ZeroDivisionError`). -/
def quantRows (n nRows step : Nat) : Except PyErr (List Nat) :=
  if step = 0 then .error .zeroDivisionError
  else (List.range (min (n / step) nRows)).mapM (fun (i : Nat) => if i * step < n then .ok (i * step) else .error .indexError)

/-- Limits of `plot_quantiles`, L294: `rows` are the quantiles of every row, flattened. -/
def quantLimits (rows : List (List ℚ)) (nRows step : Nat) : Except PyErr (ℚ × ℚ) :=
  match npMin (rows.take (nMax rows.length nRows step)).flatten, npMax (rows.take (nMax rows.length nRows step)).flatten with
  | .ok lo, .ok hi => .ok (lo, hi * (105 / 100))
  | .error e, _ => .error e
  | _, .error e => .error e

/-- `l[::step]` for positive steps; a step of zero is a `ValueError`. -/
def everyNth {A : Type} (l : List A) (step : Nat) : Except PyErr (List A) :=
  if step = 0 then .error .valueError else .ok ((List.range ((l.length + step - 1) / step)).filterMap (fun (i : Nat) => l[i * step]?))

/-- Ticks kept by `plot_summary_score`, L116-117: `ticks` are those of the heat map, `cols` the number of columns. -/
def summaryTicks {A : Type} (ticks : List A) (cols : Nat) : Except PyErr (List A) := everyNth ticks (cols / 7)

/-- How labels that are intervals are reduced to numbers, L96-100. `np.mean` of a single number is that number. -/
def unify (how : String) (label : ℚ × ℚ) : Option ℚ :=
  if how = "left" then some label.1 else if how = "mean" then some (label.1 + label.2) else none

/-- `duplicates='drop'` of `pd.cut`, L157-158, on edges in increasing order. -/
def dropRepeats : List ℚ → List ℚ
  | [] => []
  | [a] => [a]
  | a :: b :: l => if a = b then dropRepeats (b :: l) else a :: dropRepeats (b :: l)

/-- Edges of the bins of a column, `data[x].quantile(qs)` without repetitions, L157-158. -/
def edges (xs qs : List ℚ) : List ℚ := dropRepeats (qs.map (PyF.Quantile.quantileVal xs))

/-- The default levels, `np.linspace(0.1, 0.9, 11)`, L156. -/
def defaultQs : List ℚ := (List.range 11).map (fun (k : Nat) => 1 / 10 + (k : ℚ) * (8 / 100))

/-- The bin of `pd.cut(values, bins)` a value falls in: intervals open on the left and closed on the right, L157-158. -/
def cutBin (es : List ℚ) (v : ℚ) : Option Nat := (List.range (es.length - 1)).find? (fun (i : Nat) => decide (es.getD i 0 < v) && decide (v ≤ es.getD (i + 1) 0))

/-- A row of the data: value, x and y. -/
structure Row where
  value : ℚ
  x : ℚ
  y : ℚ

/-- Rows of a cell of `hist_2d`, L157-158. -/
def cellRows (data : List Row) (qs : List ℚ) (i j : Nat) : List Row :=
  data.filter (fun (r : Row) => decide (cutBin (edges (data.map (·.x)) qs) r.x = some i) && decide (cutBin (edges (data.map (·.y)) qs) r.y = some j))

/-- A cell of the table of `hist_2d`, L157-159: the mean of the values of its rows; `none` if it has no rows. -/
def cell (data : List Row) (qs : List ℚ) (i j : Nat) : Option ℚ :=
  match cellRows data qs i j with
  | [] => none
  | rs => some ((rs.map (·.value)).sum / rs.length)

end PyF.Plots
