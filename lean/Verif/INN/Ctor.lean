import Verif.Common
import Mathlib.Algebra.Order.Field.Rat

/-!
Construction of the causal invertible network and the order of its inputs: pyforecaster/forecasting_models/neural_models/INN.py, L111-172.

Simplifications: only the constructor arguments that shape the network; no load path; a frame is a list of column names and rows of values with distinct names.
-/

namespace PyF.INN

open PyF

/-- Column names. -/
abbrev Col := List Char

/-- `end_to_end`. -/
inductive Mode where | none | quasi | full
deriving DecidableEq

/-- Constructor arguments, L119-126. -/
structure Args where
  nIn : ℕ
  nOut : Option ℕ
  nLayers : ℕ
  nPredictionLayers : ℕ
  nHiddenY : ℕ
  namesExogenous : Option (List Col)
  scalingFactor : ℚ
  endToEnd : Mode

/-- What a module is built from: embedder layers, features and scaling; for end-to-end models also the widths of the predictor and the number of exogenous columns. -/
structure Config where
  layers : ℕ
  features : ℕ
  scaling : ℚ
  predictor : Option (List ℕ × ℕ)
deriving DecidableEq

/-- `n_exogenous`, L132. -/
def Args.nExogenous (a : Args) : ℕ := match a.namesExogenous with | some l => l.length | Option.none => 0

/-- Names of the integer attributes involved. -/
inductive Attr where | nPredictionLayers | numEmbeddingLayers | nExogenous | nHiddenY
deriving DecidableEq

/-- The integer attributes set by the constructor, L128-133. -/
def ctorAttrs (a : Args) : List (Attr × ℕ) := [(.nPredictionLayers, a.nPredictionLayers), (.numEmbeddingLayers, a.nHiddenY), (.nExogenous, a.nExogenous)]

/-- Class attributes, L114-117. -/
def classAttrs : List (Attr × ℕ) := [(.nPredictionLayers, 3), (.nHiddenY, 200), (.nExogenous, 0)]

/-- `self.k`: the instance dictionary, then the class. -/
def attr (a : Args) (k : Attr) : ℕ := ((ctorAttrs a ++ classAttrs).lookup k).getD 0

/-- Default scaling factor of CausalInvertibleModule, L57. -/
def moduleScaling : ℚ := 1 / 10

/-- The constructor, L128-151. `>=` with None is a TypeError, the
assertion fails if the history is shorter than the horizon; `set_arch` picks the module. -/
def build (a : Args) : Except PyErr Config :=
  match a.nOut with
  | Option.none => .error .typeError
  | some n =>
    if attr a .nExogenous + n ≤ a.nIn then
      .ok (if a.endToEnd = .none then { layers := a.nLayers, features := a.nIn, scaling := moduleScaling, predictor := Option.none }
      else { layers := a.nLayers, features := a.nIn - attr a .nExogenous, scaling := a.scalingFactor,
             predictor := some (List.replicate (attr a .nPredictionLayers - 1) (attr a .nHiddenY) ++ [n], attr a .nExogenous) })
    else .error .assertionError

/-- The column order of `reorder_inputs`, L171-174. -/
def order (exo : List Col) (cols : List Col) : List Col := exo ++ cols.filter (fun c => c ∉ exo)

/-- A frame with one row: names and values. -/
abbrev Row := List (Col × ℚ)

/-- `inputs[names]`: KeyError if a name is missing. -/
def pick (r : Row) (names : List Col) : Except PyErr Row :=
  names.mapM (fun c => match r.lookup c with | some v => .ok (c, v) | Option.none => .error .keyError)

/-- `reorder_inputs`, L171-174. -/
def reorder (exo : List Col) (r : Row) : Except PyErr Row :=
  if exo.length > 0 then pick r (order exo (r.map Prod.fst)) else .ok r

/-- What the embedder sees of an array row, L95, L107: the columns from `n_exogenous` on. -/
def endogenous (nExo : ℕ) (x : List ℚ) : List ℚ := x.drop nExo

/-- `hstack([inputs[:, n:], targets])`, L32: the window the target embedding is computed from, exogenous columns included. -/
def futureWindow (x y : List ℚ) : List ℚ := x.drop y.length ++ y

end PyF.INN
