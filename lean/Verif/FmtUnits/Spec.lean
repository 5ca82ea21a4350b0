import Verif.Fmt.Model

/-!
Specification of C272-C274: a frame with its values in another unit, an index with other time stamps, a frame with its
columns in another order or with further columns. Nothing here depends on how `Formatter.transform` works.
-/

namespace PyF.FmtUnits
open PyF.Names PyF.Transform PyF.Fmt

variable {I J : Type}

/-- A column in other units: every observation through `u`, NaN stays NaN. -/
def colIn (u : ℚ → ℚ) (c : Col) : Col := c.map (Option.map u)

/-- Named columns in other units. -/
def colsIn (u : ℚ → ℚ) (cols : List (Str × Col)) : List (Str × Col) := cols.map (fun p => (p.1, colIn u p.2))

/-- A raw frame in other units. -/
def frameIn (u : ℚ → ℚ) (F : Frame) : Frame := { dt := F.dt, cols := colsIn u F.cols }

/-- A transformed frame in other units. -/
def iframeIn (u : ℚ → ℚ) (x : IFrame I) : IFrame I := { index := x.index, cols := colsIn u x.cols }

/-- A transformed frame with other labels on its rows. -/
def relabel (g : I → J) (x : IFrame I) : IFrame J := { index := x.index.map g, cols := x.cols }

/-- The aggregation function commutes with the change of units. -/
def Unitful (u : ℚ → ℚ) (f : List ℚ → Option ℚ) : Prop := ∀ l : List ℚ, f (l.map u) = (f l).map u

/-- All aggregation functions of a transformer commute with the change of units. -/
def UnitfulTr (u : ℚ → ℚ) (tr : Transformer) : Prop := ∀ f ∈ tr.functions, Unitful u f.ev

/-- `mean`, NaN without observations. -/
def meanOf (l : List ℚ) : Option ℚ := if l = [] then none else some (l.sum / l.length)

/-- `sum`. -/
def sumOf (l : List ℚ) : Option ℚ := if l = [] then none else some l.sum

/-- `max`, NaN without observations. -/
def maxOf : List ℚ → Option ℚ
  | [] => none
  | a :: l => some (l.foldl max a)

/-- `min`, NaN without observations. -/
def minOf : List ℚ → Option ℚ
  | [] => none
  | a :: l => some (l.foldl min a)

/-- The column `df[nm]` of a list of named columns. -/
def col? (cols : List (Str × Col)) (nm : Str) : Option Col := (cols.find? (fun p => p.1 = nm)).map Prod.snd

/-- The names that a list of transformers reads. -/
def reads (trs : List Transformer) : List Str := trs.flatMap Transformer.names

end PyF.FmtUnits
