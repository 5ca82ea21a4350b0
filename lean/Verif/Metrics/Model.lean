import Verif.Common
import Verif.Quantile.Model
import Mathlib.Analysis.Real.Sqrt
import Mathlib.Data.Rat.Cast.Order

/-!
Model of `pyforecaster/metrics.py` L6-138: point metrics, quantile scores, CRPS, reliability and the scorer built from a metric.

Frames are functions of row and column position with explicit sizes; values are exact rationals, square roots are real. There are no
missing values. Results of a `groupby(...).mean()` are functions of the label, meaningful for the labels that occur. The levels of a
quantile forecast are distinct (they are keys of a dictionary).
-/

namespace PyF.Metrics
open PyF

/-- A frame with rows and columns numbered from 0. -/
abbrev Table := Nat → Nat → ℚ

/-- Mean of a list, `Series.mean` / `DataFrameGroupBy.mean`. -/
def avg (l : List ℚ) : ℚ := l.sum / l.length

/-- The positions with label `l`. -/
def members {L : Type} [DecidableEq L] (agg : List L) (l : L) : List Nat :=
  (List.range agg.length).filter (fun (i : Nat) => decide (agg[i]? = some l))

/-- `chose_axis`, L6-7. -/
def choseAxis {L : Type} (rows : Nat) (agg : List L) : Nat := if rows = agg.length then 0 else 1

/-- Result of the aggregation: one row per label, and as columns either those of the frame (`axis == 0`) or its rows (`axis == 1`). -/
inductive Grouped (L : Type)
  | overRows (val : L → Nat → ℚ)
  | overCols (val : L → Nat → ℚ)

/-- `res.groupby(agg_index).mean()` or `res.T.groupby(agg_index).mean()`, L22-25, L33-36, L45-48, L77-83. An index of another length
than the axis is a `ValueError`. -/
def aggregate {L : Type} [DecidableEq L] (n m : Nat) (agg : List L) (res : Table) : Except PyErr (Grouped L) :=
  if choseAxis n agg = 0 then .ok (.overRows (fun l j => avg ((members agg l).map (fun (i : Nat) => res i j))))
  else if agg.length = m then .ok (.overCols (fun l i => avg ((members agg l).map (fun (j : Nat) => res i j))))
  else .error .valueError

/-- `err`, L10-11. -/
def err (x t : Table) : Table := fun i j => x i j - t i j

/-- `squerr`, L14-15. -/
def squerr (x t : Table) : Table := fun i j => err x t i j ^ 2

/-- `rmse`, L18-26, before the square root: the entries are the means of the squares. -/
def mse {L : Type} [DecidableEq L] (n m : Nat) (agg : List L) (x t : Table) : Except PyErr (Grouped L) := aggregate n m agg (squerr x t)

/-- The `** 0.5` of L23, L25 for one entry. -/
noncomputable def root (q : ℚ) : ℝ := Real.sqrt (q : ℝ)

/-- `mape`, L29-37. -/
def mape {L : Type} [DecidableEq L] (n m : Nat) (agg : List L) (x t : Table) : Except PyErr (Grouped L) :=
  aggregate n m agg (fun i j => |err x t i j / (|t i j| + 1 / 100000)|)

/-- `t.abs().mean(axis=1)` at row `i`, L42, L44. -/
def rowScale (m : Nat) (t : Table) (i : Nat) : ℚ := avg ((List.range m).map (fun (j : Nat) => |t i j|))

/-- The offset of `nmae`, L42. -/
def offset (n m : Nat) (inter : Bool) (t : Table) : ℚ :=
  if inter then Quantile.quantileVal ((List.range n).map (fun (i : Nat) => rowScale m t i)) (1 / 2) * (1 / 100) + 1 / 1000000000000
  else 1 / 1000000000000

/-- `nmae`, L40-49. -/
def nmae {L : Type} [DecidableEq L] (n m : Nat) (agg : List L) (inter : Bool) (x t : Table) : Except PyErr (Grouped L) :=
  aggregate n m agg (fun i j => |err x t i j / (rowScale m t i + offset n m inter t)|)

/-- A quantile forecast: a three-dimensional array with its second and third sizes. -/
structure QHat where
  d1 : Nat
  d2 : Nat
  val : Nat → Nat → Nat → ℚ

/-- `quantile_axis`, L62. -/
def quantileAxis (q : QHat) (m : Nat) : Nat := if q.d1 = m then 2 else 1

/-- Number of quantiles, L63. -/
def nQuantiles (q : QHat) (m : Nat) : Nat := if quantileAxis q m = 2 then q.d2 else q.d1

/-- `np.linspace(0, 1, n)`, L66. -/
def linspace01 (n : Nat) : List ℚ := (List.range n).map (fun (k : Nat) => (k : ℚ) / ((n : ℚ) - 1))

/-- `err_alpha` for the level in position `a`, L70-73: an index beyond the number of quantiles is an `IndexError`; a last axis of another
size than the targets is broadcast if it is 1 and else a `ValueError`. -/
def errAlpha (q : QHat) (m : Nat) (t : Table) (a : Nat) : Except PyErr Table :=
  if quantileAxis q m = 1 then
    if q.d1 ≤ a then .error .indexError
    else if q.d2 = m then .ok (fun i j => q.val i a j - t i j)
    else if q.d2 = 1 then .ok (fun i j => q.val i a 0 - t i j)
    else .error .valueError
  else if q.d2 ≤ a then .error .indexError
  else .ok (fun i j => q.val i j a - t i j)

/-- The indicator, L74. -/
def above (e : ℚ) : ℚ := if e > 0 then 1 else 0

/-- The score of an error, L75. -/
def pinball (alpha e : ℚ) : ℚ := (above e - alpha) * e

/-- The loop L69-85 over the levels from position `a` on: score and reliability per level. -/
def quantileScores {L : Type} [DecidableEq L] (n m : Nat) (agg : List L) (q : QHat) (t : Table) : Nat → List ℚ → Except PyErr (List (ℚ × Grouped L × Grouped L))
  | _, [] => .ok []
  | a, alpha :: rest =>
    match errAlpha q m t a with
    | .error e => .error e
    | .ok ea =>
      match aggregate n m agg (fun i j => pinball alpha (ea i j)), aggregate n m agg (fun i j => above (ea i j)) with
      | .ok s, .ok r =>
        match quantileScores n m agg q t (a + 1) rest with
        | .ok out => .ok ((alpha, s, r) :: out)
        | .error e => .error e
      | .error e, _ => .error e
      | _, .error e => .error e

/-- The levels used, L64-66. -/
def levels (q : QHat) (m : Nat) (alphas : Option (List ℚ)) : List ℚ := alphas.getD (linspace01 (nQuantiles q m))

/-- Entry of an aggregation. -/
def Grouped.at {L : Type} : Grouped L → L → Nat → ℚ
  | .overRows f => f
  | .overCols f => f

/-- `crps` with `collapse_quantile_axis`, L93-100: per label and column the mean of the scores over the levels. -/
def crps {L : Type} [DecidableEq L] (n m : Nat) (agg : List L) (q : QHat) (t : Table) (alphas : Option (List ℚ)) : Except PyErr (L → Nat → ℚ) :=
  match quantileScores n m agg q t 0 (levels q m alphas) with
  | .error e => .error e
  | .ok out => .ok (fun l c => avg (out.map (fun x => x.2.1.at l c)))

/-- `reliability`, L103-111: per level the fraction, minus the level if a score is wanted. `isFrame` tells whether the forecast is a frame,
which has no third dimension: without levels `q_hat.shape[2]` is then an `IndexError`; on an array the number of default levels is the size
of the last axis. -/
def reliability {L : Type} [DecidableEq L] (n m : Nat) (agg : List L) (isFrame : Bool) (q : QHat) (t : Table) (alphas : Option (List ℚ)) (getScore : Bool) :
    Except PyErr (List (ℚ × (L → Nat → ℚ))) :=
  if isFrame = true ∧ alphas = none then .error .indexError
  else
    match quantileScores n m agg q t 0 (alphas.getD (linspace01 q.d2)) with
    | .error e => .error e
    | .ok out => .ok (out.map (fun x => (x.1, fun l c => x.2.2.at l c - if getScore then x.1 else 0)))

/-- The scorer of `rmse`, L115-138, for a frame of targets: the index has one zero per target; the mean of the table of scores. -/
noncomputable def rmseScorer (n m : Nat) (x t : Table) : Except PyErr ℝ :=
  match mse n m (List.replicate m (0 : ℚ)) x t with
  | .error e => .error e
  | .ok (.overRows f) => .ok (((List.range m).map (fun (j : Nat) => root (f 0 j))).sum / m)
  | .ok (.overCols f) => .ok (((List.range n).map (fun (i : Nat) => root (f 0 i))).sum / n)

end PyF.Metrics
