import Verif.Serve.Seasonal
import Verif.Serve.Live

/-! Concrete instances of the theorems of `Verif.Serve`. -/

namespace PyF.Serve
open PyF PyF.Quantile

/-- Two targets; the table of hour `h` has medians `h` and `10 h`. -/
def exEd : ErrDistr 2 := .byHour (fun h j => if j = 0 then [(h.val : ℚ) - 1, h.val] else [10 * (h.val : ℚ), 10 * h.val + 5])
def exRows : List (ℚ × Fin 24) := [(100, 3), (200, 1), (300, 3)]
def exPredict : ℚ → Fin 2 → ℚ := fun x j => if j = 0 then x else 2 * x

example : Width 2 exEd := by
  intro h j
  dsimp only
  split <;> rfl
def show2 (r : Except PyErr (List (Table 2))) : Option (List (List ℚ × List ℚ)) := (r.map (fun l => l.map (fun t => (t 0, t 1)))).toOption
example : show2 (hourly exPredict 2 exEd exRows) = some [([102, 103], [230, 235]), ([200, 201], [410, 415]), ([302, 303], [630, 635])] := by decide +kernel
/-- Rows 2 and 0, in this order. -/
example : show2 (hourly exPredict 2 exEd [(300, 3), (100, 3)]) = some [([302, 303], [630, 635]), ([102, 103], [230, 235])] := by decide +kernel
/-- A pooled table: hour 1 reads the row of the second target for both, hour 3 does not exist; the persistent forecasters use the own row. -/
def exPooled : ErrDistr 2 := .pooled (fun j => if j = 0 then [-1, 1] else [-20, 20])
example : show2 (hourly exPredict 2 exPooled [(100, 1)]) = some [([80, 120], [180, 220])] := by decide +kernel
example : show2 (hourly exPredict 2 exPooled exRows) = none := by decide +kernel
example : show2 (persistent false exPredict 2 exPooled exRows) = some [([99, 101], [180, 220]), ([199, 201], [380, 420]), ([299, 301], [580, 620])] := by
  decide +kernel

/-- Season 1, 2, 3: a frame of two rows and its rows alone. -/
example : (Bench.seasPredict [1, 2, 3] 2 [7, 8]).toOption = some [[1, 2], [2, 3]] := by decide +kernel
example : (Bench.seasPredict [1, 2, 3] 2 [8]).toOption = some [[1], [2]] := by decide +kernel
example : (Bench.seasPredict [1, 2, 3] 4 [8]).toOption = some [[1], [2], [3], [8]] := by decide +kernel

/-- Period 3, season 2: exact with six values, not with five. -/
example : wrapErrors 2 1 [1, 2, 3, 1, 2, 3] 0 = [0, 0, 0, 0, 0] := by decide +kernel
example : wrapErrors 2 1 [1, 2, 3, 1, 2] 0 = [1, 1, 0, 0] := by decide +kernel
example : (seasFitAll 2 1 [1/2] [1, 2, 3, 1, 2]).toOption = some ([1, 2], [[1/2]]) := by decide +kernel

end PyF.Serve
