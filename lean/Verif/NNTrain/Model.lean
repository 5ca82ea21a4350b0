import Verif.Common
import Mathlib.Algebra.Order.Field.Basic
import Mathlib.Algebra.Order.AbsoluteValue.Basic

/-!
The training loop of the neural networks: pyforecaster/forecasting_models/neural_models/base_nn.py, `NN.fit`, L341-440.

Simplifications: `train_step` followed by the optional projection (L389-391) is one function of parameters, optimiser state and batch rows; the loss on the random
validation subset (L397-410) is a function of the step counter and the parameters, `none` is NaN and infinite losses are left out; plots and messages are left
out; the permutation of every epoch (L382) is a parameter. The fields `steps` and `evals` only record what happened.
-/

namespace PyF.NNTrain

open PyF

variable {P O K : Type} [Field K] [LinearOrder K]

/-- What the loop is given. -/
structure Cfg (P O K : Type) where
  /-- number of training rows -/
  n : ℕ
  /-- `self.batch_size` -/
  batchSize : Option ℕ
  nEpochs : ℕ
  statsStep : ℕ
  relTol : K
  stoppingRounds : ℤ
  /-- one training step on the given rows, including the projection -/
  step : P → O → List ℕ → P × O
  /-- validation loss at a step -/
  loss : ℕ → P → Option K
  /-- the permutation drawn in an epoch -/
  perm : ℕ → List ℕ

/-- One recorded evaluation. -/
structure Eval (P K : Type) where
  k : ℕ
  pars : P
  loss : Option K

/-- Local variables of the loop and `self.pars`; `val` is `val_loss` without its first entry, newest first. -/
structure St (P O K : Type) where
  k : ℕ
  pars : P
  opt : O
  self : P
  old : Option P
  val : List (Option K)
  steps : List (List ℕ)
  evals : List (Eval P K)

/-- L360. -/
def bs (c : Cfg P O K) : ℕ := c.batchSize.getD (c.n / 10)

/-- L361. -/
def numBatches (c : Cfg P O K) : ℕ := c.n / bs c

/-- `rand_idx_all[i * batch_size:(i + 1) * batch_size]`, L385. -/
def batch (perm : List ℕ) (b i : ℕ) : List ℕ := (perm.drop (i * b)).take b

/-- `rel_te_err < rel_tol`, L427, L429 (division by a zero numpy float gives a signed infinity or NaN). -/
def relLess (tol prev cur : K) : Bool :=
  if |prev + 1 / 1000000| = 0 then decide (prev - cur < 0) else decide ((prev - cur) / |prev + 1 / 1000000| < tol)

/-- All losses, if none is NaN. -/
def allSome : List (Option K) → Option (List K)
  | [] => some []
  | none :: _ => none
  | some v :: l =>
    match allSome l with
    | none => none
    | some vs => some (v :: vs)

/-- Position of the first least entry of a list (newest first, so the last least entry of `val_loss`). -/
def argMin : List K → ℕ
  | [] => 0
  | v :: l => if ∀ w ∈ l, v ≤ w then 0 else argMin l + 1

/-- L427-431 with at least two recorded losses: NaN makes `np.argwhere(...)` empty, and `[-1]` raises. -/
def decideStop (c : Cfg P O K) (k : ℕ) (val : List (Option K)) : Except PyErr Bool :=
  match allSome val with
  | none => .error .indexError
  | some [] => .ok false
  | some [_] => .ok false
  | some (cur :: prev :: rest) =>
    let lastImprovement : ℤ := (k / c.statsStep : ℕ) - (((cur :: prev :: rest).length : ℤ) - argMin (cur :: prev :: rest))
    .ok (relLess c.relTol prev cur || (decide ((k : ℤ) > c.stoppingRounds) && decide (lastImprovement > c.stoppingRounds)))

/-- The state after the evaluation block L395-411. -/
def record (c : Cfg P O K) (st : St P O K) (p : P) (o : O) (rows : List ℕ) : St P O K :=
  { st with
    pars := p, opt := o, steps := st.steps ++ [rows], old := some st.self, self := p, val := c.loss st.k p :: st.val,
    evals := ⟨st.k, p, c.loss st.k p⟩ :: st.evals }

/-- One iteration of the inner loop, L385-432; the flag tells whether it breaks. -/
def body (c : Cfg P O K) (st : St P O K) (rows : List ℕ) : Except PyErr (St P O K × Bool) :=
  if c.statsStep = 0 then .error .zeroDivisionError
  else if st.k % c.statsStep = 0 ∧ 0 < st.k then
    if 2 ≤ (record c st (c.step st.pars st.opt rows).1 (c.step st.pars st.opt rows).2 rows).val.length then
      match decideStop c st.k (record c st (c.step st.pars st.opt rows).1 (c.step st.pars st.opt rows).2 rows).val with
      | .error e => .error e
      | .ok true => .ok (record c st (c.step st.pars st.opt rows).1 (c.step st.pars st.opt rows).2 rows, true)
      | .ok false => .ok ({ record c st (c.step st.pars st.opt rows).1 (c.step st.pars st.opt rows).2 rows with k := st.k + 1 }, false)
    else .ok ({ record c st (c.step st.pars st.opt rows).1 (c.step st.pars st.opt rows).2 rows with k := st.k + 1 }, false)
  else
    .ok ({ st with pars := (c.step st.pars st.opt rows).1, opt := (c.step st.pars st.opt rows).2, steps := st.steps ++ [rows], k := st.k + 1 }, false)

/-- The inner loop over the batches of one epoch. -/
def inner (c : Cfg P O K) : List (List ℕ) → St P O K → Except PyErr (St P O K × Bool)
  | [], st => .ok (st, false)
  | r :: rs, st =>
    match body c st r with
    | .error e => .error e
    | .ok (st', true) => .ok (st', true)
    | .ok (st', false) => inner c rs st'

/-- The batches of an epoch, L383-385. -/
def epochBatches (c : Cfg P O K) (e : ℕ) : List (List ℕ) := (List.range (numBatches c)).map (batch (c.perm e) (bs c))

/-- The outer loop over the epochs, L381-434. -/
def outer (c : Cfg P O K) : List ℕ → St P O K → Except PyErr (St P O K × Bool)
  | [], st => .ok (st, false)
  | e :: es, st =>
    match inner c (epochBatches c e) st with
    | .error e => .error e
    | .ok (st', true) => .ok (st', true)
    | .ok (st', false) => outer c es st'

/-- L435-438: go back to the parameters of the previous evaluation if the last loss rose. -/
def finish (st : St P O K) : Except PyErr P :=
  match st.val with
  | some cur :: some prev :: _ =>
    if prev < cur then
      match st.old with
      | none => .error .unboundLocalError
      | some p => .ok p
    else .ok st.pars
  | _ => .ok st.pars

/-- The state before the loop, L373-380: `p0`, `o0` are the initial parameters and optimiser state, `self0` is `self.pars`. -/
def start (p0 : P) (o0 : O) (self0 : P) : St P O K := ⟨0, p0, o0, self0, none, [], [], []⟩

/-- The loop of `NN.fit`, L360-438: final state, whether it stopped early, and the parameters kept. -/
def fit (c : Cfg P O K) (p0 : P) (o0 : O) (self0 : P) : Except PyErr (St P O K × Bool × P) :=
  if bs c = 0 then .error .zeroDivisionError
  else
    match outer c (List.range c.nEpochs) (start p0 o0 self0) with
    | .error e => .error e
    | .ok (st, fin) =>
      match finish st with
      | .error e => .error e
      | .ok p => .ok (st, fin, p)

end PyF.NNTrain
