import Verif.NNTrain.Model

/-!
The training loop of the neural networks with numpy's global generator: pyforecaster/forecasting_models/neural_models/base_nn.py, `NN.fit`, L341-440, and the
plots saved during training, L420-426 and `training_plots`, L442-467.

`Verif/NNTrain/Model.lean` takes the draws as given. Here the state of the generator is threaded through the loop, so that what one draw leaves behind decides
the next one. Simplifications: besides those of `Verif/NNTrain/Model.lean`, the loss on validation rows is a function of the parameters and the rows, and
drawing and saving the figures themselves is left out (taken not to raise and not to draw).
-/

namespace PyF.NNSeed

open PyF PyF.NNTrain

variable {P O K G : Type} [Field K] [LinearOrder K]

/-- The draws from the generator: `np.random.choice(training_len, training_len, replace=False)`, L382; `np.random.choice(validation_len,
np.minimum(batch_size, validation_len), replace=False)`, L397; `np.random.choice(validation_len, 9)`, L423, of which only the state left behind matters. -/
structure Rng (G : Type) where
  shuffle : G → List ℕ × G
  sample : G → List ℕ × G
  plot : G → G

/-- One iteration of the inner loop, L385-432. The fields `loss` and `perm` of `c` are not used: the loss is taken on the rows drawn (L397-410), and with
`savepath_tr_plots` nine more rows are drawn from the second evaluation on (L419-423). -/
def body (c : Cfg P O K) (vl : P → List ℕ → Option K) (r : Rng G) (plots : Bool) (st : St P O K) (g : G) (rows : List ℕ) :
    Except PyErr (St P O K × G × Bool) :=
  if c.statsStep ≠ 0 ∧ st.k % c.statsStep = 0 ∧ 0 < st.k then
    match NNTrain.body { c with loss := fun _ p => vl p (r.sample g).1 } st rows with
    | .error e => .error e
    | .ok (st', b) => .ok (st', if plots = true ∧ 2 ≤ st'.val.length then r.plot (r.sample g).2 else (r.sample g).2, b)
  else
    match NNTrain.body c st rows with
    | .error e => .error e
    | .ok (st', b) => .ok (st', g, b)

/-- The inner loop over the batches of one epoch, L383-432. -/
def inner (c : Cfg P O K) (vl : P → List ℕ → Option K) (r : Rng G) (plots : Bool) : List (List ℕ) → St P O K → G → Except PyErr (St P O K × G × Bool)
  | [], st, g => .ok (st, g, false)
  | b :: bs, st, g =>
    match body c vl r plots st g b with
    | .error e => .error e
    | .ok (st', g', true) => .ok (st', g', true)
    | .ok (st', g', false) => inner c vl r plots bs st' g'

/-- The outer loop, L381-434: every epoch begins by drawing the order of the rows. -/
def outer (c : Cfg P O K) (vl : P → List ℕ → Option K) (r : Rng G) (plots : Bool) : ℕ → St P O K → G → Except PyErr (St P O K × Bool)
  | 0, st, _ => .ok (st, false)
  | n + 1, st, g =>
    match inner c vl r plots ((List.range (numBatches c)).map (batch (r.shuffle g).1 (bs c))) st (r.shuffle g).2 with
    | .error e => .error e
    | .ok (st', _, true) => .ok (st', true)
    | .ok (st', g', false) => outer c vl r plots n st' g'

/-- The loop of `NN.fit`, L360-438, from the state `g` of the generator. -/
def fit (c : Cfg P O K) (vl : P → List ℕ → Option K) (r : Rng G) (plots : Bool) (p0 : P) (o0 : O) (self0 : P) (g : G) :
    Except PyErr (St P O K × Bool × P) :=
  if bs c = 0 then .error .zeroDivisionError
  else
    match outer c vl r plots c.nEpochs (start p0 o0 self0) g with
    | .error e => .error e
    | .ok (st, fin) =>
      match finish st with
      | .error e => .error e
      | .ok p => .ok (st, fin, p)

end PyF.NNSeed
