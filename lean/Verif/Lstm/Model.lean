import Verif.Common
import Mathlib.Algebra.Order.Field.Rat
import Mathlib.Algebra.Order.Floor.Defs
import Mathlib.Data.Rat.Floor

/-!
Windows of the LSTM forecaster: pyforecaster/forecasting_models/neural_models/LSTM_bidir.py, L49-125.

Simplifications: exact rational arithmetic; the history is at least one step (`lstm_history - 1` is a plain index); the two scalers' statistics, the training and the network
are parameters: `Stats` computes mean and positive scale of the target column, the exogenous scaler is a function of the exogenous columns, `train` is everything keras does
with the arrays (weights of an earlier fit included), `net` is the trained network on one sample.
-/

namespace PyF.Lstm

open PyF

/-- A row of the frame: label, target, exogenous values. -/
structure Row where
  label : ℤ
  target : ℚ
  exog : List ℚ
deriving DecidableEq

/-- The arrays handed to keras: sequences, exogenous rows, targets. -/
structure Arrays where
  seq : List (List ℚ)
  exog : List (List ℚ)
  y : List (List ℚ)
deriving DecidableEq

/-- `sliding_window_view(x, window_shape=h)`. -/
def windows (h : ℕ) (x : List ℚ) : List (List ℚ) := (List.range (x.length + 1 - h)).map (fun i => (x.drop i).take h)

/-- `total_samples` of `fit`, L63. -/
def totalSamples (h p n : ℕ) : ℕ := n + 1 - h - p

/-- The arrays built by `fit` from the scaled columns, L63-73. -/
def fitArrays (h p : ℕ) (x : List ℚ) (e : List (List ℚ)) : Arrays :=
  { seq := (windows h x).take (totalSamples h p x.length),
    exog := (e.take (x.length - p)).drop (h - 1),
    y := (List.range (totalSamples h p x.length)).map (fun i => (x.drop (i + h)).take p) }

/-- `split_index`, L76. -/
def splitIndex (valSplit : ℚ) (total : ℕ) : ℕ := ⌊(1 - valSplit) * total⌋.toNat

/-- The training part, L77-79. -/
def Arrays.first (a : Arrays) (s : ℕ) : Arrays := { seq := a.seq.take s, exog := a.exog.take s, y := a.y.take s }

/-- The validation part, L77-79. -/
def Arrays.rest (a : Arrays) (s : ℕ) : Arrays := { seq := a.seq.drop s, exog := a.exog.drop s, y := a.y.drop s }

/-- The external parts. `net w seq exog` is the output on one sample. -/
structure Ext (W : Type) where
  stats : List ℚ → ℚ × ℚ
  exogScaler : List (List ℚ) → List ℚ → List ℚ
  train : Option W → Arrays → Arrays → W
  net : W → List ℚ → List ℚ → List ℚ

/-- A fitted forecaster: target mean and scale, exogenous scaler, weights. -/
structure State (W : Type) where
  mean : ℚ
  scale : ℚ
  exog : List ℚ → List ℚ
  weights : W

variable {W : Type}

/-- `StandardScaler.transform` of the target. -/
def scaled (m s : ℚ) (x : List ℚ) : List ℚ := x.map (fun v => (v - m) / s)

/-- `StandardScaler.inverse_transform`; the single mean and scale are broadcast over the columns. -/
def unscaled (m s : ℚ) (x : List ℚ) : List ℚ := x.map (fun v => v * s + m)

/-- `fit`, L49-99; `old` holds the weights of an earlier fit. -/
def fit (E : Ext W) (h p : ℕ) (valSplit : ℚ) (old : Option W) (df : List Row) : Except PyErr (State W) :=
  if df.length < h + p then .error .assertionError
  else
    let x := df.map Row.target
    let e := df.map Row.exog
    let st := E.stats x
    let sc := E.exogScaler e
    let a := fitArrays h p (scaled st.1 st.2 x) (e.map sc)
    let s := splitIndex valSplit (totalSamples h p df.length)
    .ok { mean := st.1, scale := st.2, exog := sc, weights := E.train old (a.first s) (a.rest s) }

/-- The inputs built by `predict` from the scaled columns, L110-117. -/
def predictInputs (h : ℕ) (x : List ℚ) (e : List (List ℚ)) : List (List ℚ × List ℚ) :=
  ((windows h x).take (x.length - h)).zip ((e.drop (h - 1)).take (x.length - h))

/-- `predict`, L101-125: labels and forecasts. -/
def predict (E : Ext W) (h : ℕ) (st : State W) (df : List Row) : Except PyErr (List (ℤ × List ℚ)) :=
  if df.length < h then .error .assertionError
  else
    let ins := predictInputs h (scaled st.mean st.scale (df.map Row.target)) ((df.map Row.exog).map st.exog)
    .ok (((df.map Row.label).drop h).zip (ins.map (fun i => unscaled st.mean st.scale (E.net st.weights i.1 i.2))))

end PyF.Lstm
