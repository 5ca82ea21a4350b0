import Verif.Common
import Mathlib.Algebra.Order.Ring.Int

/-!
Model of `Formatter.time_kfcv`, `pyforecaster/formatter.py` L416-473. Time stamps and durations are whole nanoseconds.
`pd.date_range(a, b, periods=n)` is modelled as `a + ⌊j·(b-a)/(n-1)⌋`, which is numpy's integer `linspace` computed
without rounding errors. Metadata of all transformers is assumed to be present and non-empty (the branch L450-456 only
fills it).
-/

namespace PyF.Kfcv

/-- `pd.date_range(start, stop, n)[j]`. -/
def dateRange (start stop : Int) (n j : Nat) : Int := start + ((j : Int) * (stop - start)) / ((n : Int) - 1)

/-- `time_window`, L441-442. -/
def timeWindow (a b : Int) (nk : Nat) : Int := dateRange a b nk 1 - dateRange a b nk 0

/-- The largest `|start_time|` over all metadata rows, L458. -/
def deadband (starts : List Int) : Int := (starts.map (fun s => |s|)).foldr max 0

/-- `tr_idxs`, L468. -/
def trainMask (idx : List Int) (db lo hi : Int) : List Bool := idx.map (fun t => decide (t < lo - db) || decide (t > hi + db))

/-- `te_idx`, L469. -/
def testMask (idx : List Int) (lo hi : Int) : List Bool := idx.map (fun t => decide (t ≥ lo) && decide (t ≤ hi))

/-- `time_kfcv(time_index, n_k, multiplier_factor)`, L416-473. `starts`: one list of `start_time`s per transformer.
`AssertionError` L438, `IndexError` on an empty index L439, `ValueError` from `np.hstack([])` L458, and the bare
`raise` of L463, a `RuntimeError`. -/
def kfcv (idx : List Int) (nk mult : Nat) (starts : List (List Int)) : Except PyErr (List (List Bool × List Bool)) :=
  if nk < 2 then .error .assertionError
  else
    match idx.head?, idx.getLast? with
    | some a, some b =>
      if starts = [] then .error .valueError
      else
        let w := timeWindow a b nk
        let db := deadband starts.flatten
        if db > w then .error .runtimeError
        else
          .ok ((List.range (nk * mult)).map (fun i =>
            let lo := dateRange a (b - w) (nk * mult) i
            let hi := w + lo
            (trainMask idx db lo hi, testMask idx lo hi)))
    | _, _ => .error .indexError

end PyF.Kfcv
