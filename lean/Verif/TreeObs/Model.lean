import Verif.Scenred.TreeModel
import Mathlib.Algebra.Order.Ring.Rat

/-!
Model of `obs_at_step_t` (`pyforecaster/scenred.py` L249-252) on the trees of `Verif.Scenred`. The values of a node are a
vector of exact numbers.
-/

namespace PyF.TreeObs
open PyF PyF.Scenred

/-- `np.unique` of an array of numbers: flattened, increasing, without repetitions. -/
def uniqueVals (l : List ℚ) : List ℚ := l.dedup.insertionSort (· ≤ ·)

/-- `values[i]`, L251-252. -/
def valueOf (N : List (Node (List ℚ))) (i : Int) : List ℚ := (N[i.toNat]?).elim [] (fun x => x.v)

/-- `obs_at_step_t(g, t)`, L249-252. Row `t` of the table of paths, negative `t` from the end; `IndexError` beyond the table. -/
def obsAtStep (N : List (Node (List ℚ))) (t : Int) : Except PyErr (List ℚ) :=
  match retrieve N false with
  | .error e => .error e
  | .ok (cols, _) =>
    let T : Int := maxTime N + 1
    if t < -T ∨ T ≤ t then .error .indexError
    else
      let r := (if t < 0 then t + T else t).toNat
      .ok (uniqueVals (cols.flatMap (fun col => valueOf N (col.getD r 0))))

end PyF.TreeObs
