import Verif.Common
import Mathlib.Data.Rat.Defs
import Mathlib.Algebra.Order.Ring.Rat
import Mathlib.Algebra.Field.Rat
import Mathlib.Data.List.Basic

/-!
Model of `ScenarioGenerator.predict_pmf`, `pyforecaster/forecaster.py` L258-270.
-/

namespace PyF.Pmf
open PyF

/-- Number of samples below / not above a value (`searchsorted` left / right on the sorted samples). -/
def cntLt (a : List ℚ) (e : ℚ) : Int := (a.countP (fun v => decide (v < e)) : Nat)
def cntLe (a : List ℚ) (e : ℚ) : Int := (a.countP (fun v => decide (v ≤ e)) : Nat)

/-- Cumulative counts of `np.histogram`: `searchsorted(edges[:-1], 'left')` followed by
`searchsorted(edges[-1], 'right')`. -/
def cum (a : List ℚ) : List ℚ → List Int
  | [] => []
  | [e] => [cntLe a e]
  | e :: es => cntLt a e :: cum a es

/-- `np.diff`. -/
def diff : List Int → List Int
  | [] => []
  | [_] => []
  | a :: b :: l => (b - a) :: diff (b :: l)

/-- Are the bin edges non-decreasing (the check numpy makes)? -/
def edgesOk : List ℚ → Bool
  | [] => true
  | [_] => true
  | a :: b :: l => decide (a ≤ b) && edgesOk (b :: l)

/-- `np.histogram(a, bins=edges)[0]` with explicit edges: `ValueError` unless the edges are non-empty and
non-decreasing. -/
def histogram (a edges : List ℚ) : Except PyErr (List Int) :=
  if edges.isEmpty || !edgesOk edges then .error .valueError else .ok (diff (cum a edges))

/-- One row/target of `predict_pmf`, L269: the histogram of the predicted quantiles divided by the number
of levels. -/
def pmf (nLevels : Nat) (quantiles edges : List ℚ) : Except PyErr (List ℚ) :=
  match histogram quantiles edges with
  | .error e => .error e
  | .ok c => .ok (c.map (fun z : Int => (z : ℚ) / (nLevels : ℚ)))

end PyF.Pmf
