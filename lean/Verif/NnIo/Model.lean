import Verif.Common
import Verif.Split.Model
import Verif.Ctor.Model
import Mathlib.Data.Rat.Defs
import Mathlib.Algebra.BigOperators.Group.List.Basic

/-!
Inputs and outputs of the networks of pyforecaster/forecasting_models/neural_models/base_nn.py: `NN.fit` L341-381 and L439 (scalers, split, normalised inputs), `NN.predict` L466-485,
`NN.predict_quantiles` L487-506, `NN.get_normalized_inputs` L508-522, `LSTMNN.check_inputs` L563-565, `FeedForwardModule.__call__` L103-146 (sizes of layers), and the keywords of
`NN.__init__`, `FFNN.__init__`, `LSTMNN.__init__` L222-261, L529-536, L548-551 with `set_arch` L329-336.

Simplifications: exact rational values; column names are not repeated; the spread of a column (`StandardScaler.scale_`) is an oracle `dev`, and so is the training (from the normalised
training rows to a function of an input vector, see `Verif.NN` for the loop); the network refuses vectors of another length than in training; as in scikit-learn, a scaler refuses frames whose column
names are not those of its fit in the same order. The post-fit prediction and the targets are left out of `fit`. In the part on sizes a layer is represented by its number of outputs.
-/

namespace PyF.NnIo

open PyF

/-! ### Normalisation of the inputs -/

/-- A frame: column names, and rows as functions of the name. -/
structure Frame where
  cols : List String
  rows : List (String → ℚ)

/-- A fitted `StandardScaler`: column names and, for each, the map applied. -/
structure Scaler where
  names : List String
  f : String → ℚ → ℚ

/-- The oracles. -/
structure Env where
  dev : List ℚ → ℚ
  train : List (List ℚ) → List ℚ → List ℚ

/-- Constructor arguments. -/
structure Cfg where
  unnorm : Option (List String)
  subtractMean : Bool
  valRatio : Option ℚ

/-- Attributes `input_scaler`, and the trained network with its input size. -/
structure State where
  scaler : Option Scaler
  net : Option (ℕ × (List ℚ → List ℚ))

/-- A new object, L190 and L200. -/
def fresh : State := ⟨none, none⟩

/-- `to_be_normalized`, L342-343 and L511-512. -/
def toNorm (c : Cfg) (cols : List String) : List String :=
  match c.unnorm with
  | some u => cols.filter (fun k => k ∉ u)
  | none => cols

/-- Mean of a column. -/
def mean (l : List ℚ) : ℚ := l.sum / l.length

/-- `StandardScaler(with_mean=…).fit(inputs[names])`, L345-346. -/
def fitScaler (E : Env) (c : Cfg) (x : Frame) (names : List String) : Scaler :=
  ⟨names, fun k z => (z - if c.subtractMean then mean (x.rows.map (fun r => r k)) else 0) / E.dev (x.rows.map (fun r => r k))⟩

/-- L342-346: the scaler after the first lines of `fit`; without a column to normalise it is not touched. -/
def newScaler (E : Env) (c : Cfg) (s : State) (x : Frame) : Option Scaler :=
  if 0 < (toNorm c x.cols).length then some (fitScaler E c x (toNorm c x.cols)) else s.scaler

/-- `get_normalized_inputs`, L508-515 and L522: the vectors handed to the network. -/
def normInputs (c : Cfg) (sc : Option Scaler) (x : Frame) : Except PyErr (List (List ℚ)) :=
  match sc with
  | none => .ok (x.rows.map (fun r => x.cols.map (fun k => r k)))
  | some sc =>
    if toNorm c x.cols = sc.names then
      .ok (x.rows.map (fun r => x.cols.map (fun k => if k ∈ toNorm c x.cols then sc.f k (r k) else r k)))
    else .error .valueError

/-- The network at a vector. -/
def applyNet (w : ℕ) (g : List ℚ → List ℚ) (v : List ℚ) : Except PyErr (List ℚ) := if v.length = w then .ok (g v) else .error .valueError

/-- `predict`, L466-485, before the targets are scaled back. -/
def predict (c : Cfg) (s : State) (x : Frame) : Except PyErr (List (List ℚ)) :=
  match s.net with
  | none => .error .typeError
  | some (w, g) =>
    match normInputs c s.scaler x with
    | .error e => .error e
    | .ok vs => vs.mapM (applyNet w g)

/-- The training and the validation frames, L355. -/
def splitFrame (c : Cfg) (x : Frame) : Frame × Frame :=
  (⟨x.cols, (Split.trainValSplit c.valRatio x.rows x.rows).1⟩, ⟨x.cols, (Split.trainValSplit c.valRatio x.rows x.rows).2.2.1⟩)

/-- The vectors the network is trained on, L342-369. -/
def trainInputs (E : Env) (c : Cfg) (s : State) (x : Frame) : Except PyErr (List (List ℚ)) :=
  normInputs c (newScaler E c s x) (splitFrame c x).1

/-- `fit`, L341-440: the new attributes and the exception, if any. -/
def fit (E : Env) (c : Cfg) (s : State) (x : Frame) : State × Option PyErr :=
  match trainInputs E c s x with
  | .error e => (⟨newScaler E c s x, s.net⟩, some e)
  | .ok vs => (⟨newScaler E c s x, some (x.cols.length, E.train vs)⟩, none)

/-- The object after calls of `fit`, each with the arguments in force at that time (`set_params` may change them in between); exceptions are caught by the caller. -/
def history (E : Env) : State → List (Cfg × Frame) → State
  | s, [] => s
  | s, (c, x) :: l => history E (fit E c s x).1 l

/-! ### Quantiles -/

/-- What is handed to `predict_quantiles`: a frame, or the array an LSTM makes of it. -/
inductive Inp
  | frame (x : Frame)
  | array (vs : List (List ℚ))

/-- `check_inputs`, L338-339 and L563-565: `np.atleast_3d` turns a frame into an array for an LSTM. -/
def checkInputs (lstm : Bool) : Inp → Inp
  | .frame x => if lstm then .array (x.rows.map (fun r => x.cols.map (fun k => r k))) else .frame x
  | .array vs => .array vs

/-- `predict` of a frame or an array: an array has neither columns nor values, L511-512 and L522. -/
def predictInp (c : Cfg) (s : State) : Inp → Except PyErr (List (List ℚ))
  | .frame x => predict c s x
  | .array _ => .error .attributeError

/-- The forecasts `predict_quantiles` starts from, L487-502; `direct` is `normalize=False`, used for plots during the training. -/
def quantileBase (lstm prob direct : Bool) (c : Cfg) (s : State) (i : Inp) : Except PyErr (List (List ℚ)) :=
  if prob && direct then
    match s.net, checkInputs lstm i with
    | none, _ => .error .typeError
    | some (w, g), .array vs => vs.mapM (applyNet w g)
    | some _, .frame _ => .error .typeError
  else predictInp c s (checkInputs lstm i)

/-! ### Sizes of a feed-forward network -/

/-- `n_layers`: a number or a list of widths. -/
inductive Layers
  | count (k : ℕ)
  | widths (l : List ℕ)

/-- The arguments of `FeedForwardModule`, L96-101; `sel` is the number of entries of the selector. -/
structure Arch where
  layers : Layers
  nOut : ℕ
  nNeurons : ℕ
  split : Bool
  sel : Option ℕ
  skip : Bool

/-- `layers`, L104-109. -/
def Arch.widths (a : Arch) : Except PyErr (List ℕ) :=
  match a.layers with
  | .count 0 => .error .indexError
  | .count (k + 1) => .ok (List.replicate k a.nNeurons ++ [a.nOut])
  | .widths l => .ok l

/-- Size of the chain of layers for `p` inputs, L119-144. -/
def Arch.chain (a : Arch) (l : List ℕ) (p : ℕ) : ℕ :=
  match l.getLast? with
  | none => p
  | some w => if a.split then a.nOut else w

/-- Size of the shortcut, L111-117; `none` is the number 0. -/
def Arch.short (a : Arch) (l : List ℕ) : Except PyErr (Option ℕ) :=
  match a.sel with
  | some k => .ok (some k)
  | none =>
    if a.skip then
      match l.getLast? with
      | none => .error .indexError
      | some w => .ok (some w)
    else .ok none

/-- Sum of two vectors of numpy sizes `a` and `b`. -/
def bcast (a b : ℕ) : Except PyErr ℕ := if a = b then .ok a else if b = 1 then .ok a else if a = 1 then .ok b else .error .typeError

/-- Number of outputs, L146. -/
def Arch.outs (a : Arch) (p : ℕ) : Except PyErr ℕ :=
  match a.widths with
  | .error e => .error e
  | .ok l =>
    match a.short l with
    | .error e => .error e
    | .ok none => .ok (a.chain l p)
    | .ok (some k) => bcast (a.chain l p) k

/-- The frames built by `predict` for `t` target columns, L477-485: mean and, for a probabilistic network, deviation. -/
def frames (prob : Bool) (m t : ℕ) : Except PyErr Unit :=
  if prob then (if m / 2 = t ∧ m - m / 2 = t then .ok () else .error .valueError)
  else (if m = t then .ok () else .error .valueError)

/-! ### Keywords of the constructors -/

open Ctor in
/-- Named parameters of `NN.__init__`, L222-228. -/
def nnNames : List String :=
  ["learning_rate", "batch_size", "load_path", "n_hidden_x", "n_out", "n_layers", "pars", "q_vect", "val_ratio", "nodes_at_step", "n_epochs", "savepath_tr_plots", "stats_step", "rel_tol",
   "unnormalized_inputs", "normalize_target", "stopping_rounds", "subtract_mean_when_normalizing", "causal_df", "probabilistic", "probabilistic_loss_kind"]

/-- The losses, L42-45 and L88-93. -/
inductive Loss
  | squared
  | likelihood
  | crps
  deriving DecidableEq

/-- An object: attributes, the scenario generator, the loss of the training. -/
structure Obj where
  attrs : Ctor.Dict
  gen : Ctor.Gen
  loss : Loss

/-- `set_arch`, L333-335, L541-543, L556-558: `probabilistic_loss_fn` with its default kind. -/
def lossOf (attrs : Ctor.Dict) : Loss := if attrs "probabilistic" = some (.bool true) then .likelihood else .squared

/-- `NN(**d)`, L222-261, without `load_path`: the attributes given (the defaults are left out) and the generator. -/
def nn (d : Ctor.Dict) : Except PyErr Obj :=
  match Ctor.scenarioGenerator ((d.rest nnNames).update (d.named ["q_vect", "val_ratio", "nodes_at_step"])) with
  | .error e => .error e
  | .ok g => .ok ⟨d.named nnNames, g, lossOf (d.named nnNames)⟩

/-- `FFNN(**d)` and `LSTMNN(**d)`, L529-536 and L548-551: `scengen_dict` is passed on as a keyword of that name, and `nn_module` is added. The arguments `split_heads`, `selector` and
`skip_connection` of `FFNN` are bound by it. -/
def ffnn (own : List String) (module : Ctor.Val) (d : Ctor.Dict) : Except PyErr Obj :=
  nn (((d.rest own).set "nn_module" module).set "scengen_dict" ((d "scengen_dict").getD (.other 0)))

end PyF.NnIo
