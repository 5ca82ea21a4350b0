import Verif.Common
import Mathlib.Data.Rat.Floor
import Mathlib.Data.List.Basic

/-!
Model of `ScenarioGenerator.train_val_split`, `pyforecaster/forecaster.py` L313-321.
-/

namespace PyF.Split

/-- Python `int(q)` truncates towards zero. -/
def truncQ (q : ℚ) : Int := if q < 0 then ⌈q⌉ else ⌊q⌋

/-- Python slice bound: a negative index counts from the end, then clamp to `0..n`. -/
def bound (n : Nat) (i : Int) : Nat :=
  if i < 0 then (i + n).toNat else min i.toNat n

/-- `a.iloc[i:, :]`. -/
def sliceFrom {α : Type} (a : List α) (i : Int) : List α := a.drop (bound a.length i)

/-- `a.iloc[:i, :]`. -/
def sliceTo {α : Type} (a : List α) (i : Int) : List α := a.take (bound a.length i)

/-- `train_val_split`, L313-321. Returns `(x, y, x_val, y_val)`. -/
def trainValSplit {X Y : Type} (valRatio : Option ℚ) (x : List X) (y : List Y) :
    List X × List Y × List X × List Y :=
  match valRatio with
  | some r =>
    let nVal : Int := truncQ ((x.length : ℚ) * r)
    let nTr : Int := (x.length : Int) - nVal
    (sliceTo x nTr, sliceTo y nTr, sliceFrom x nTr, sliceFrom y nTr)
  | none => (x, y, x, y)

end PyF.Split
