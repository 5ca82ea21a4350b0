import Verif.Common
import Mathlib.Algebra.Order.Ring.Int
import Mathlib.Tactic.Ring

/-!
Model of `hankel` (`pyforecaster/forecasting_models/holtwinters.py` L19-28). A two-dimensional array is kept as the list
of its columns, since it is built column by column.
-/

namespace PyF.Hankel

variable {α : Type}

/-- numpy integer indexing of a vector: negative indexes count from the end, others raise `IndexError`. -/
def pyGet (x : List α) (k : Int) : Except PyErr α :=
  match (if 0 ≤ k then x[k.toNat]? else if -(x.length : Int) ≤ k then x[(k + x.length).toNat]? else none) with
  | some v => .ok v
  | none => .error .indexError

/-- `x[w + g]` for `w = np.arange(m)`, L23-26; `m ≤ 0` gives an empty vector. -/
def column (x : List α) (m : Nat) (g : Int) : Except PyErr (List α) :=
  (List.range m).mapM (fun (i : Nat) => pyGet x ((i : Int) + g))

/-- `hankel(x, n, generate_me)`, L19-28; `np.hstack([])` raises `ValueError`. -/
def hankel (x : List α) (n : Nat) (gen : Option (List Int)) : Except PyErr (List (List α)) :=
  let gs := gen.getD ((List.range n).map (fun (j : Nat) => (j : Int)))
  let m := x.length + 1 - n
  match gs.mapM (column x m) with
  | .error e => .error e
  | .ok h => if gs = [] then .error .valueError else .ok h

end PyF.Hankel
