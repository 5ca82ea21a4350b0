import Verif.Common
import Verif.Bench.Model

/-!
Sampling time inferred from the index of a frame, features on frames with missing rows, and the cells and layout of `DiscreteDistr`:
pyforecaster/formatter.py L736-737, L751, L763, L802-811; pyforecaster/forecasting_models/benchmarks.py L79-129.

Simplifications: stamps are integers (nanoseconds) without time zone; values are exact rationals and NaN is `none`; an aggregation function is an
arbitrary map from the non-missing observations of its window to a value or NaN; target names are distinct.
-/

namespace PyF.Sampling

open PyF

/-- `index.diff()` without the leading NaT. -/
def diffs : List ℤ → List ℤ
  | [] => []
  | [_] => []
  | a :: b :: l => (b - a) :: diffs (b :: l)

/-- `.median()` of durations: NaT without entries; the mean of the two middle ones is cut to a whole number. -/
def median (l : List ℤ) : Option ℤ :=
  let s := l.insertionSort (· ≤ ·)
  let n := s.length
  if n = 0 then none
  else if n % 2 = 1 then some (s.getD (n / 2) 0)
  else some (Int.tdiv (s.getD (n / 2 - 1) 0 + s.getD (n / 2) 0) 2)

/-- The sampling time of a `Transformer` without `dt`, formatter.py L737. -/
def inferDt (index : List ℤ) : Option ℤ := median (diffs index)

/-- `drop_duplicates`: the first of equal stamps stays. -/
def dropDuplicates : List ℤ → List ℤ
  | [] => []
  | a :: l => a :: (dropDuplicates l).filter (· ≠ a)

/-- The sampling time of `DiscreteDistr`, benchmarks.py L82, L116. -/
def samplingTime (index : List ℤ) : Option ℤ := inferDt (dropDuplicates index)

/-! ### Features on an irregular index -/

/-- A column with its index. -/
abbrev Series := List (ℤ × Option ℚ)

/-- The stamp of a row. -/
def stampAt (S : Series) (i : ℕ) : ℤ := (S.getD i (0, none)).1

/-- `shift(l)` at row `t`, formatter.py L805: rows are counted, not time. -/
def shiftAt (S : Series) (l : ℤ) (t : ℕ) : Option ℚ :=
  if 0 ≤ (t : ℤ) - l then (S[((t : ℤ) - l).toNat]?).bind Prod.snd else none

/-- The rows of the time based window of `rolling(agg)` at row `t`, formatter.py L763. -/
def window (S : Series) (agg : ℤ) (t : ℕ) : Series := (S.take (t + 1)).filter (fun e => stampAt S t - e.1 < agg)

/-- `rolling(agg, min_periods).agg(f)` at row `t`, formatter.py L763. -/
def rollAt (S : Series) (agg : ℤ) (minPeriods : ℕ) (f : List ℚ → Option ℚ) (t : ℕ) : Option ℚ :=
  let obs := (window S agg t).filterMap Prod.snd
  if obs.length < minPeriods then none else f obs

/-- `agg_steps`, formatter.py L751. -/
def aggSteps (agg dt : ℤ) : ℕ := (Int.tdiv agg dt).toNat

/-! ### DiscreteDistr -/

/-- `floor(u)` of a stamp: `values - np.remainder(values, unit)`; a zero unit changes nothing. -/
def floorTo (u v : ℤ) : ℤ := if u = 0 then v else v - Int.fmod v u

/-- Nanoseconds of a day. -/
def day : ℤ := 86400000000000

/-- `.time`. -/
def timeOfDay (v : ℤ) : ℤ := Int.fmod v day

/-- The cell of a stamp, benchmarks.py L90, L118. -/
def cellOf (u v : ℤ) : ℤ := timeOfDay (floorTo u v)

variable {N : Type} [LinearOrder N] {T : ℕ}

/-- What `fit` stores: the training rows by cell and the names of the targets. -/
structure Fitted (N : Type) (T : ℕ) where
  rows : List (Bench.DRow ℤ T)
  names : Fin T → N

/-- `fit`, benchmarks.py L79-109; `floor` refuses a missing sampling time. -/
def fit (xIndex : List ℤ) (y : List (ℤ × (Fin T → ℚ))) (names : Fin T → N) : Except PyErr (Fitted N T) :=
  match samplingTime xIndex with
  | none => .error .valueError
  | some u => .ok ⟨y.map (fun r => ⟨cellOf u r.1, r.2⟩), names⟩

/-- `columns.levels[0]` after `sort_index(axis=1)`, benchmarks.py L99-107: the targets by name. -/
def targetOrder (names : Fin T → N) : List (Fin T) := (List.finRange T).insertionSort (fun i j => names i ≤ names j)

/-- A forecast frame. -/
structure Out (N : Type) where
  index : List ℕ
  columns : List N
  values : List (List ℚ)

/-- `predict`, benchmarks.py L111-129: the cells are held in a new series with a default index. -/
def predict (m : Fitted N T) (xIndex : List ℤ) : Except PyErr (Out N) :=
  match samplingTime xIndex with
  | none => .error .valueError
  | some u => .ok ⟨List.range xIndex.length, (targetOrder m.names).map m.names,
      xIndex.map (fun v => (targetOrder m.names).map (fun j => Bench.discPredict m.rows (cellOf u v) j))⟩

end PyF.Sampling
