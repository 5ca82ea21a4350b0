import Verif.INN.Model
import Verif.INN.Ctor
import Verif.Losses.Model

/-!
Training losses of the causal invertible network and what `predict` serves: pyforecaster/forecasting_models/neural_models/INN.py, L17-50, L86-108, L150-165, L189-225.

Simplifications: exact real arithmetic, NaN and infinities are `none`; a batch is a function of the row number, a row a function of the
column number whose first `ex` columns are exogenous and whose next `m` columns are the history. The prediction head is a parameter.
No scaling of inputs (`normalize_target` is switched off by `fit`, L177).
-/

namespace PyF.InnLoss

open PyF PyF.INN

noncomputable section

variable {B h : ℕ}

/-- An end-to-end network, L75-108: scaling factor, layers of the embedder, number of exogenous and of endogenous columns, and the
prediction head as function of the embedded history and the exogenous columns. -/
structure Net where
  s : ℝ
  layers : List Layer
  ex : ℕ
  m : ℕ
  head : (ℕ → ℝ) → (ℕ → ℝ) → ℕ → ℝ

/-- `x[..., n_exogenous_features:]`, L93, L104. -/
def Net.endogenous (N : Net) (row : ℕ → ℝ) (i : ℕ) : ℝ := row (N.ex + i)

/-- `embed`, L103-105. -/
def Net.embed (N : Net) (row : ℕ → ℝ) : ℕ → ℝ := INN.embed N.s N.m N.layers (N.endogenous row)

/-- The first `k` entries. -/
def firstK (k : ℕ) (x : ℕ → ℝ) (i : ℕ) : ℝ := if i < k then x i else 0

/-- `__call__`, L90-96: forecasts in the embedded space. -/
def Net.call (N : Net) (row : ℕ → ℝ) : ℕ → ℝ := N.head (firstK N.m (N.embed row)) (firstK N.ex row)

/-- `inputs_future`, L29: all columns are shifted, exogenous ones included. -/
def Net.future (N : Net) (n : ℕ) (row y : ℕ → ℝ) : ℕ → ℝ := shiftIn (N.ex + N.m) n row y

/-- `e_target`, L30. -/
def Net.targetRow (N : Net) (n : ℕ) (row y : ℕ → ℝ) : ℕ → ℝ := lastN N.m n (N.embed (N.future n row y))

/-- `predict` of one row in the modes 'full' and 'quasi', L197-200, and `targets_hat`, L45-46. -/
def Net.serve (N : Net) (n : ℕ) (row : ℕ → ℝ) : ℕ → ℝ :=
  lastN N.m n (invert N.s N.m N.layers (shiftIn N.m n (N.embed row) (N.call row)))

/-- A row of a table with `n` columns as function of the column number. -/
def wide {n : ℕ} (y : Fin n → ℝ) (j : ℕ) : ℝ := if hj : j < n then y ⟨j, hj⟩ else 0

/-- `jnp.roll(e, 1, axis=1)`, L34: the first column becomes the last one. -/
def roll {n : ℕ} (e : Fin B → Fin n → ℝ) (i : Fin B) (j : Fin n) : ℝ :=
  if hj : j.val = 0 then e i ⟨n - 1, by have := j.isLt; omega⟩ else e i ⟨j.val - 1, by have := j.isLt; omega⟩

/-- `skill_score`, L33-35; a zero denominator gives an infinity or NaN. -/
def skillScore {n : ℕ} (e eHat : Fin B → Fin n → ℝ) : Option ℝ :=
  if Losses.mse e (roll e) = 0 then none else some (Losses.mse e eHat / Losses.mse e (roll e))

/-- `e_target` of a batch. -/
def targetTable {n : ℕ} (N : Net) (rows : Fin B → ℕ → ℝ) (y : Fin B → Fin n → ℝ) (i : Fin B) (j : Fin n) : ℝ :=
  N.targetRow n (rows i) (wide (y i)) j

/-- `e_target_hat` of a batch. -/
def hatTable (n : ℕ) (N : Net) (rows : Fin B → ℕ → ℝ) (i : Fin B) (j : Fin n) : ℝ := N.call (rows i) j

/-- The forecasts of a batch. -/
def serveTable (n : ℕ) (N : Net) (rows : Fin B → ℕ → ℝ) (i : Fin B) (j : Fin n) : ℝ := N.serve n (rows i) j

/-- `quasi_end_to_end_loss_fn`, L23-36. -/
def quasiLoss {n : ℕ} (N : Net) (rows : Fin B → ℕ → ℝ) (y : Fin B → Fin n → ℝ) : Option ℝ :=
  skillScore (targetTable N rows y) (hatTable n N rows)

/-- `full_end_to_end_loss_fn`, L39-50. -/
def fullLoss {n : ℕ} (N : Net) (rows : Fin B → ℕ → ℝ) (y : Fin B → Fin n → ℝ) : ℝ := Losses.mse y (serveTable n N rows)

/-- The embedding of a batch of plain inputs, the network of the mode 'none', L151, L153. -/
def plainTable (s : ℝ) (m : ℕ) (ls : List Layer) (rows : Fin B → ℕ → ℝ) (i : Fin B) (j : Fin m) : ℝ := INN.embed s m ls (rows i) j

/-- `loss_fn`, L17-21, the loss of the mode 'none': the targets are an unused argument. -/
def plainLoss {n : ℕ} (s : ℝ) (m : ℕ) (ls : List Layer) (rows : Fin B → ℕ → ℝ) (_y : Fin B → Fin n → ℝ) : Option ℝ :=
  Losses.klLoss (plainTable s m ls rows)

/-- `predict` in the mode 'none', L213-221: the embedding under the names of the targets; pandas refuses a number of names other than the
number of columns. -/
def plainServe (s : ℝ) (m : ℕ) (ls : List Layer) (names : List Col) (rows : List (ℕ → ℝ)) : Except PyErr (List (List (Col × ℝ))) :=
  if names.length = m then .ok (rows.map (fun r => names.zipIdx.map (fun c => (c.1, INN.embed s m ls r c.2)))) else .error .valueError

end

end PyF.InnLoss
