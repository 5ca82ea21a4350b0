import Verif.LstmNet.Model
import Mathlib.Analysis.Real.Sqrt

/-!
Model of `FeedForwardModule` (`pyforecaster/forecasting_models/neural_models/base_nn.py` L95-146) and of the forecasts of the networks built on
it (L466-485), with exact real numbers and arbitrary parameters; training is not modelled. `nn.LayerNorm` is written out with its default
`epsilon` (1e-6). A vector is a function of the position together with its length. The selector is a list of positions within the row.
-/

namespace PyF.FfNet
open PyF PyF.LstmNet

/-- Mean of a vector of length `n`. -/
noncomputable def mean (n : ℕ) (x : ℕ → ℝ) : ℝ := (∑ j ∈ Finset.range n, x j) / n

/-- Variance of a vector of length `n`. -/
noncomputable def var (n : ℕ) (x : ℕ → ℝ) : ℝ := (∑ j ∈ Finset.range n, (x j - mean n x) ^ 2) / n

/-- The parameters `scale` and `bias` of a `LayerNorm`. -/
structure Norm where
  g : ℕ → ℝ
  b : ℕ → ℝ

/-- `nn.LayerNorm()(x)`, L123. -/
noncomputable def Norm.apply (L : Norm) (n : ℕ) (x : ℕ → ℝ) (k : ℕ) : ℝ :=
  (x k - mean n x) / Real.sqrt (var n x + 1 / 1000000) * L.g k + L.b k

/-- `nn.Dense` on a vector of length `m`. -/
noncomputable def dense (D : Dense) (m : ℕ) (x : ℕ → ℝ) (k : ℕ) : ℝ := (∑ j ∈ Finset.range m, D.W k j * x j) + D.b k

/-- `nn.relu`. -/
noncomputable def relu (v : ℝ) : ℝ := max 0 v

/-- The parameters of the module: `dense_i`, the norms, the subnets by head, `dense_-1`. -/
structure Params where
  layer : ℕ → Dense
  norm : ℕ → Norm
  subIn : ℕ → Dense
  subOut : ℕ → Dense
  skip : Dense

/-- The attributes of the module, L96-101. -/
structure Config where
  layers : Layers
  nOut : Option ℕ
  nNeurons : ℕ
  split : Bool
  selector : Option (List ℕ)
  skip : Bool

/-- The sizes of the layers, L104-109; `layers[-1]` of no layer is an `IndexError`, `n_out=None` a `TypeError`. -/
def sizes (c : Config) : Except PyErr (List ℕ) :=
  match c.layers with
  | .num 0 => .error .indexError
  | .num (l + 1) =>
    match c.nOut with
    | none => .error .typeError
    | some n => .ok (List.replicate l c.nNeurons ++ [n])
  | .sizes l => .ok l

/-- The hidden layers, L118-123, from layer `i` on, on a vector of length `m`: the vector before the last layer and its length. -/
noncomputable def hidden (P : Params) : ℕ → ℕ → (ℕ → ℝ) → List ℕ → ℕ × (ℕ → ℝ)
  | _, m, x, [] => (m, x)
  | i, m, x, n :: ns => hidden P (i + 1) n ((P.norm i).apply n (fun k => relu (dense (P.layer i) m x k))) ns

/-- The last layer, L124-144: its outputs. `w` is the width of the subnets, `n_last` the last size. -/
noncomputable def lastLayer (c : Config) (P : Params) (i m w nLast : ℕ) (x : ℕ → ℝ) : List ℝ :=
  if c.split then
    (List.range (c.nOut.getD nLast)).map (fun k => dense (P.subOut k) w (fun j => relu (dense (P.subIn k) m x j)) 0)
  else (List.range nLast).map (fun k => dense (P.layer i) m x k)

/-- `x + y` of two arrays: same length, or one of them of length one; otherwise a `TypeError` of jax. -/
noncomputable def addVec (a b : List ℝ) : Except PyErr (List ℝ) :=
  if a.length = b.length then .ok (List.zipWith (· + ·) a b)
  else if b.length = 1 then .ok (a.map (fun v => v + b.headD 0))
  else if a.length = 1 then .ok (b.map (fun v => a.headD 0 + v))
  else .error .typeError

/-- `y` of L111-117; `none` is the number 0. -/
noncomputable def shortcut (c : Config) (P : Params) (row : List ℝ) (nLast : ℕ) : Option (List ℝ) :=
  match c.selector with
  | some s => some (s.map (fun k => row.getD k 0))
  | none => if c.skip then some ((List.range nLast).map (fun k => dense P.skip row.length (fun j => row.getD j 0) k)) else none

/-- `FeedForwardModule.__call__` on one row, L103-146. An empty list of sizes has no last layer: the row is returned as it is, and
`layers[-1]` of the skip connection is an `IndexError`. -/
noncomputable def forward (c : Config) (P : Params) (row : List ℝ) : Except PyErr (List ℝ) :=
  match sizes c with
  | .error e => .error e
  | .ok ls =>
    match ls.getLast? with
    | none =>
      match c.selector with
      | some s => addVec row (s.map (fun k => row.getD k 0))
      | none => if c.skip then .error .indexError else .ok row
    | some nLast =>
      let h := hidden P 0 row.length (fun j => row.getD j 0) ls.dropLast
      let out := lastLayer c P (ls.length - 1) h.1 (ls.dropLast.getLastD nLast) nLast h.2
      match shortcut c P row nLast with
      | none => .ok out
      | some y => addVec out y

end PyF.FfNet
