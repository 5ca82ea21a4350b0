import Verif.Common
import Mathlib.Analysis.SpecialFunctions.Sigmoid
import Mathlib.Analysis.Complex.Trigonometric
import Mathlib.Algebra.BigOperators.Group.Finset.Basic

/-!
Model of `LSTMModule` and of the forecasts of `LSTMNN` (`pyforecaster/forecasting_models/neural_models/base_nn.py` L148-188, L466-485,
L547-565), with exact real numbers. `nn.LSTMCell` is written out: gates `i`, `f`, `g`, `o` that are affine in the input and the hidden
state, cell state `c' = f c + i g`, hidden state `h' = o tanh(c')`; `initialize_carry` gives zeros. Training is not modelled: the
parameters are arbitrary. Vectors are functions of the position together with their length.
-/

namespace PyF.LstmNet
open PyF

/-- The parameters of one gate. -/
structure Gate where
  W : ℕ → ℕ → ℝ
  U : ℕ → ℕ → ℝ
  b : ℕ → ℝ

/-- The parameters of an `LSTMCell`, L176, L183. -/
structure Cell where
  i : Gate
  f : Gate
  g : Gate
  o : Gate

/-- `kernel @ x + recurrent kernel @ h + bias` for `m` inputs and `n` hidden units. -/
noncomputable def Gate.pre (G : Gate) (m n : ℕ) (x h : ℕ → ℝ) (k : ℕ) : ℝ :=
  (∑ j ∈ Finset.range m, G.W k j * x j) + (∑ j ∈ Finset.range n, G.U k j * h j) + G.b k

/-- The carry: cell state and hidden state. -/
structure Carry where
  c : ℕ → ℝ
  h : ℕ → ℝ

/-- `initialize_carry`, L178, L184. -/
noncomputable def Carry.zero : Carry := ⟨fun _ => 0, fun _ => 0⟩

/-- One step of an `LSTMCell`. -/
noncomputable def Cell.step (C : Cell) (m n : ℕ) (s : Carry) (x : ℕ → ℝ) : Carry :=
  let c := fun k => Real.sigmoid (C.f.pre m n x s.h k) * s.c k
    + Real.sigmoid (C.i.pre m n x s.h k) * Real.tanh (C.g.pre m n x s.h k)
  { c := c, h := fun k => Real.sigmoid (C.o.pre m n x s.h k) * Real.tanh (c k) }

/-- `lstm(carry, x)`, L179, L185: the sequence of hidden states. -/
noncomputable def Cell.scan (C : Cell) (m n : ℕ) (s : Carry) : List (ℕ → ℝ) → List (ℕ → ℝ)
  | [] => []
  | x :: xs => (C.step m n s x).h :: Cell.scan C m n (C.step m n s x) xs

/-- The attribute `n_layers`: a number or a list of sizes, L154. -/
inductive Layers
  | num (l : ℕ)
  | sizes (l : List ℕ)

/-- The sizes of the layers, L154-161: the last one of a number of layers has `n_out` units; `layers[-1]` of no layer is an
`IndexError`. -/
def layerSizes (L : Layers) (nNeurons nOut : ℕ) : Except PyErr (List ℕ) :=
  match L with
  | .num 0 => .error .indexError
  | .num (l + 1) => .ok (List.replicate l nNeurons ++ [nOut])
  | .sizes l => .ok l

/-- The parameters of the final dense layer, L186. -/
structure Dense where
  W : ℕ → ℕ → ℝ
  b : ℕ → ℝ

/-- The last entry of a sequence and its dense image, L186; `IndexError` for an empty sequence. -/
noncomputable def Dense.last (D : Dense) (n : ℕ) (xs : List (ℕ → ℝ)) : Except PyErr (List ℝ) :=
  match xs.getLast? with
  | none => .error .indexError
  | some h => .ok ((List.range n).map (fun k => (∑ j ∈ Finset.range n, D.W k j * h j) + D.b k))

/-- The loop over the layers, L171-186, on a sequence of vectors of length `m`; the `j`-th layer has the cell `cells j`. -/
noncomputable def run (cells : ℕ → Cell) (D : Dense) (j m : ℕ) (xs : List (ℕ → ℝ)) : List ℕ → Except PyErr (List ℝ)
  | [] => .ok (xs.map (fun x => x 0))
  | [n] => D.last n ((cells j).scan m n Carry.zero xs)
  | n :: n' :: ns => run cells D (j + 1) n ((cells j).scan m n Carry.zero xs) (n' :: ns)

/-- `LSTMModule.__call__` on one row of an `LSTMNN`: `check_inputs` (L563-565) turns a row of features into a sequence of vectors
of length one, one per column, L153-188. -/
noncomputable def forward (L : Layers) (nNeurons nOut : ℕ) (cells : ℕ → Cell) (D : Dense) (row : List ℝ) : Except PyErr (List ℝ) :=
  match layerSizes L nNeurons nOut with
  | .error e => .error e
  | .ok ls => run cells D 0 1 (row.map (fun v => fun _ => v)) ls

/-- `target_scaler.inverse_transform`, L476. -/
noncomputable def unscale (mean scale : ℕ → ℝ) (y : List ℝ) : List ℝ := y.zipIdx.map (fun p => p.1 * scale p.2 + mean p.2)

/-- `predict` for one row of normalised features, L466-485, not probabilistic; `nCols` is the number of target columns of `fit`,
with which the scaler and the output frame must agree. -/
noncomputable def predict (L : Layers) (nNeurons nOut nCols : ℕ) (cells : ℕ → Cell) (D : Dense) (mean scale : ℕ → ℝ) (row : List ℝ) :
    Except PyErr (List ℝ) :=
  match forward L nNeurons nOut cells D row with
  | .error e => .error e
  | .ok y => if y.length = nCols then .ok (unscale mean scale y) else .error .valueError

end PyF.LstmNet
