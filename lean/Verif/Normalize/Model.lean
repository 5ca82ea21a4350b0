import Verif.Common
import Verif.Names.Model
import Mathlib.Data.List.Dedup
import Mathlib.Data.Rat.Defs

/-!
Model of `Formatter.normalize`, `normalize_target_inner` and `denormalize` (`pyforecaster/formatter.py` L282-355) on
the target side. A normalising expression is an arbitrary function of the row's normaliser values and of the value
`df[t]`; expressions reading other columns are not modelled. Values are exact rationals without NaN.
-/

namespace PyF.Normalize
open PyF.Names

variable {N : Type}

/-- A target frame: named columns of equal length. -/
abbrev Frame := List (Str × List ℚ)

/-- What the two methods read from the formatter and from `x`: the two expressions, the target names of the
normalisers (L308-309), the columns of all target transformers' metadata (L339-340: `isin(..).index` is the whole
index), the normaliser values of each row (L305). -/
structure Setting (N : Type) where
  norm : Option (N → ℚ → ℚ)
  denorm : Option (N → ℚ → ℚ)
  targetNames : List Str
  metaCols : List Str
  rows : List N

/-- `eval(fun)` on one column, L342, L354-355. -/
def evalCol (g : N → ℚ → ℚ) (rows : List N) (c : List ℚ) : List ℚ := List.zipWith g rows c

/-- `df_n.loc[:, c] = eval(..)`, L342; `KeyError` when there is no such column. -/
def assign (g : N → ℚ → ℚ) (rows : List N) (c : Str) (y : Frame) : Except PyErr Frame :=
  if y.any (fun p => p.1 = c) then .ok (y.map (fun p => if p.1 = c then (p.1, evalCol g rows p.2) else p))
  else .error .keyError

/-- A sequence of assignments. -/
def assignAll (g : N → ℚ → ℚ) (rows : List N) : List Str → Frame → Except PyErr Frame
  | [], y => .ok y
  | c :: cs, y =>
    match assign g rows c y with
    | .error e => .error e
    | .ok y' => assignAll g rows cs y'

/-- `normalize_target_inner`, L334-344: for every distinct target name, for every metadata column. -/
def inner (s : Setting N) (g : N → ℚ → ℚ) (y : Frame) : Except PyErr Frame :=
  assignAll g s.rows (s.targetNames.dedup.flatMap (fun _ => s.metaCols)) y

/-- `normalize(x, y, normalizing_fun)`, L297-321, on a frame. `f = none`: the formatter's own expression. -/
def normalize (s : Setting N) (f : Option (N → ℚ → ℚ)) (y : Frame) : Except PyErr Frame :=
  match s.norm with
  | none => .ok y
  | some g0 => inner s (f.getD g0) y

/-- `denormalize(x, y)`, L346-352. -/
def denormalize (s : Setting N) (y : Frame) : Except PyErr Frame :=
  match s.denorm with
  | none => .ok y
  | some d => normalize s (some d) y

/-- The quantile branch, L313-319: each quantile level's frame is treated separately. -/
def mapLevels (f : Frame → Except PyErr Frame) : List (ℚ × Frame) → Except PyErr (List (ℚ × Frame))
  | [] => .ok []
  | (q, y) :: ys =>
    match f y with
    | .error e => .error e
    | .ok y' =>
      match mapLevels f ys with
      | .error e => .error e
      | .ok ys' => .ok ((q, y') :: ys')

end PyF.Normalize
