import Verif.Transform.Model

/-!
Model of the nested `agg_bins` branch of `Transformer` (`pyforecaster/formatter.py` L690-702, L746-749, L766-776,
L799-808, L824-834) for one variable. Durations and frames as in `Verif.Transform.Model`. Column names are kept as
records of the parts they are formatted from. For `nested=False` (the `Reducer`) see `Verif.BinFlat`.
-/

namespace PyF.Binned
open PyF.Names PyF.Transform

/-- Consecutive bin borders `(original_agg_bins[i], original_agg_bins[i+1])`; borders are in descending order, L691,
L696-698. -/
def pairs (b : List Nat) : List (Nat × Nat) := b.zip b.tail

/-- What a column name is made of, L768-770, L800: lag, bin, function. -/
structure Label where
  lag : Option Int
  bin : Nat × Nat
  fn : Str
  deriving DecidableEq

/-- The sub-transformer of one bin, L699-701: window `from - to` steps, lag `to`. -/
def sub (name : Str) (fs : List Fn) (p : Nat × Nat) : Transformer :=
  { names := [name], functions := fs, agg := .steps (p.1 - p.2), lags := some [(p.2 : Int)], relative := false, dtArg := none }

/-- The columns before lagging: bins in order, and for each the columns of its sub-transformer, L771-776. -/
def baseCols (name : Str) (fs : List Fn) (b : List Nat) (dt : Nat) (c : Col) : List Col :=
  (pairs b).flatMap (fun p => (genCols (sub name fs p) ((sub name fs p).agg.resolve dt) dt name c).map Prod.snd)

/-- The names given to them, `product(bins, function_names)`, L768-770. -/
def baseLabels (fs : List Fn) (b : List Nat) : List ((Nat × Nat) × Str) :=
  (pairs b).flatMap (fun p => fs.map (fun f => (p, f.name)))

/-- `agg_steps`, L748: `max(bins) - min(bins)`. -/
def binSteps (b : List Nat) : Nat := b.headD 0 - b.getLastD 0

/-- `lag_steps`, L802, L808. -/
def lagSteps (b : List Nat) (relative : Bool) (lags : Option (List Int)) : List Int :=
  match lags with
  | none => [0]
  | some ls => ls.map (fun l => l * (if relative then (binSteps b : Int) else 1))

/-- The columns with their names: `product(lags, base names)` and the concatenation of the shifted frames, L799-806. -/
def columns (name : Str) (fs : List Fn) (b : List Nat) (relative : Bool) (lags : Option (List Int)) (dt : Nat) (c : Col) :
    List (Label × Col) :=
  match lags with
  | none => (baseLabels fs b).zipWith (fun n col => ({ lag := none, bin := n.1, fn := n.2 }, col)) (baseCols name fs b dt c)
  | some ls =>
    ls.flatMap (fun l => (baseLabels fs b).zipWith
      (fun n col => ({ lag := some l, bin := n.1, fn := n.2 }, shift (l * (if relative then (binSteps b : Int) else 1)) col))
      (baseCols name fs b dt c))

/-- The metadata columns `function` and `lag`, L825-827: `product(function_names, lags_expanded)` where
`lags_expanded` repeats every lag once per bin. -/
def metaFnLag (fs : List Fn) (b : List Nat) (relative : Bool) (lags : Option (List Int)) : List (Str × Int) :=
  let expanded := (lagSteps b relative lags).flatMap (fun l => List.replicate (b.length - 1) l)
  fs.flatMap (fun f => expanded.map (fun l => (f.name, l)))

/-- The metadata columns `start_time` and `end_time`, L831-834: `product(bins, function_names, lag_steps)`. -/
def metaTimes (fs : List Fn) (b : List Nat) (relative : Bool) (lags : Option (List Int)) (dt : Nat) : List (Int × Int) :=
  (pairs b).flatMap (fun p => fs.flatMap (fun _ => (lagSteps b relative lags).map
    (fun l => (-(dt : Int) * (p.1 + l) + dt, -(dt : Int) * (p.2 + l) + dt))))

end PyF.Binned
