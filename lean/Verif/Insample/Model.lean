import Verif.Quantile.Model
import Verif.Metrics.Model

/-!
A forecaster fitted and then scored with `reliability` on the rows it was fitted on:
`pyforecaster/forecaster.py` L197-218, L233-256, L351-355 and `pyforecaster/metrics.py` L52-111, L120-138.

The parts are those of `Verif.Quantile` and `Verif.Metrics`; here are the conversions between them. The levels are distinct (a
dictionary has them as keys).
-/

namespace PyF.Insample
open PyF Quantile Metrics

/-- The targets as a frame. -/
def targets {X : Type} {T : ℕ} (train : List (TrainRow X T)) : Metrics.Table := fun i j =>
  match train[i]? with
  | none => 0
  | some r => if h : j < T then r.y ⟨j, h⟩ else 0

/-- The array of the quantiles: rows, targets, levels (forecaster.py L233-256: the frame and the array have the same entries). -/
def toQHat {T : ℕ} (levels : ℕ) (out : List (Fin T → List ℚ)) : QHat :=
  { d1 := T, d2 := levels,
    val := fun i j k =>
      match out[i]? with
      | none => 0
      | some f => if h : j < T then (f ⟨j, h⟩).getD k 0 else 0 }

/-- Fit with `conditional_to_hour`, forecast the quantiles of the same rows, `reliability` with the levels of the forecaster
(metrics.py L123-126) and `agg` as index. -/
def scored {X L : Type} [DecidableEq L] {T : ℕ} (predict : X → Fin T → ℚ) (qv : List ℚ) (train : List (TrainRow X T)) (agg : List L) (isFrame : Bool) :
    Except PyErr (List (ℚ × (L → ℕ → ℚ))) :=
  match fitErr predict true qv train with
  | .error e => .error e
  | .ok ed =>
    match predictQuantiles predict ed (train.map (fun r => (r.x, r.hour))) with
    | .error e => .error e
    | .ok out => reliability train.length T agg isFrame (toQHat qv.length out) (targets train) (some qv) false

/-- The same with `quantile_scores` (metrics.py L52-90): score and reliability per level. -/
def pinballScored {X L : Type} [DecidableEq L] {T : ℕ} (predict : X → Fin T → ℚ) (qv : List ℚ) (train : List (TrainRow X T)) (agg : List L) :
    Except PyErr (List (ℚ × Grouped L × Grouped L)) :=
  match fitErr predict true qv train with
  | .error e => .error e
  | .ok ed =>
    match predictQuantiles predict ed (train.map (fun r => (r.x, r.hour))) with
    | .error e => .error e
    | .ok out => quantileScores train.length T agg (toQHat qv.length out) (targets train) 0 qv

end PyF.Insample
