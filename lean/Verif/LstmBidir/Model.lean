import Verif.LstmNet.Model

/-!
Model of the network of `LSTM_Forecaster` (`pyforecaster/forecasting_models/neural_models/LSTM_bidir.py` L23-47) and of its forecast
for one window (L119-120), with exact real numbers and arbitrary parameters. Keras' `LSTM` is the cell of `Verif.LstmNet` with `tanh` and
`sigmoid` and zero initial state.
-/

namespace PyF.LstmBidir
open PyF PyF.LstmNet

/-- The parameters of the network, L24-40: two cells, two hidden dense layers, two linear heads. -/
structure Params where
  fwd : Cell
  bwd : Cell
  d1 : Dense
  d2 : Dense
  headSeq : Dense
  headExog : Dense

/-- A dense layer without activation on a vector of length `m`. -/
noncomputable def affine (D : Dense) (m : ℕ) (x : ℕ → ℝ) (k : ℕ) : ℝ := (∑ j ∈ Finset.range m, D.W k j * x j) + D.b k

/-- `Dense(…, activation='relu')`, L29-30. -/
noncomputable def reluLayer (D : Dense) (m : ℕ) (x : ℕ → ℝ) (k : ℕ) : ℝ := max 0 (affine D m x k)

/-- `LSTM(units=64, return_sequences=False)`: the last hidden state; zeros for an empty sequence. -/
noncomputable def lastHidden (C : Cell) (seq : List ℝ) : ℕ → ℝ :=
  ((C.scan 1 64 Carry.zero (seq.map (fun v => fun _ => v))).getLast?).getD (fun _ => 0)

/-- `Bidirectional(LSTM(64))`, L25: both directions one after the other. -/
noncomputable def bidir (P : Params) (seq : List ℝ) (k : ℕ) : ℝ :=
  if k < 64 then lastHidden P.fwd seq k else lastHidden P.bwd seq.reverse (k - 64)

/-- `exog_out`, L29-30. -/
noncomputable def exogOut (P : Params) (e : List ℝ) : ℕ → ℝ :=
  reluLayer P.d2 64 (reluLayer P.d1 e.length (fun j => e.getD j 0))

/-- `output`, L36-40: the sum of the two heads; `merged` of L33 is not used. -/
noncomputable def output (P : Params) (seq e : List ℝ) (k : ℕ) : ℝ :=
  affine P.headSeq 128 (bidir P seq) k + affine P.headExog 32 (exogOut P e) k

/-- Step `k` of the forecast of one window, L119-120: `inverse_transform` of the scaler of the target (one mean, one scale). -/
noncomputable def forecast (P : Params) (mean scale : ℝ) (seq e : List ℝ) (k : ℕ) : ℝ := output P seq e k * scale + mean

end PyF.LstmBidir
