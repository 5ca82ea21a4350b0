import Verif.Quantile.Model

/-! Errors of a forecaster on rows. -/

namespace PyF.Insample.Spec
open PyF.Quantile

/-- The errors of target `c` in the rows. -/
def errors {X : Type} {T : ℕ} (predict : X → Fin T → ℚ) (rows : List (TrainRow X T)) (c : Fin T) : List ℚ :=
  rows.map (fun r => r.y c - predict r.x c)

/-- The rows of an hour. -/
def atHour {X : Type} {T : ℕ} (rows : List (TrainRow X T)) (h : Fin 24) : List (TrainRow X T) := rows.filter (fun r => r.hour == h)

end PyF.Insample.Spec
