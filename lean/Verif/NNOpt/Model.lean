import Verif.Common
import Mathlib.Algebra.Order.Field.Rat
import Mathlib.Algebra.Order.AbsoluteValue.Basic
import Mathlib.Algebra.BigOperators.Group.List.Basic

/-!
Optimising the controls of an input-convex network, and its causal penalty: pyforecaster/forecasting_models/neural_models/ICNN.py L83-112, L323-413.

Simplifications: exact rational arithmetic; the objective as a function of the normalised controls and the optimiser (`inverter_optimizer`) are parameters; one input row (the
code writes `y.ravel()` into the frame); jit compilation is left out, so `recompile_obj=False` is not modelled. The Jacobian in the causal penalty is a parameter.
-/

namespace PyF.NNOpt

open PyF

/-- Objective and optimiser: `init` is `inverter_optimizer.init`, `step` one update of controls and optimiser state. -/
structure Opt (Y S : Type) where
  value : Y → ℚ
  init : Y → S
  step : Y → S → Y × S

variable {Y S : Type}

/-- The loop of `iterate` for `k` rounds, L381-387: controls, optimiser state and the last value computed (before the last step). -/
def rounds (o : Opt Y S) : ℕ → Y × S × ℚ → Y × S × ℚ
  | 0, st => st
  | k + 1, st => rounds o k ((o.step st.1 st.2.1).1, (o.step st.1 st.2.1).2, o.value st.1)

/-- `iterate`, L380-388; the optimiser state is not returned. -/
def iterate (o : Opt Y S) (s : S) (y : Y) : Y × ℚ := ((rounds o 10 (y, s, 0)).1, (rounds o 10 (y, s, 0)).2.2)

/-- The loop of `optimize` with `k` rounds left, L396-401: controls, value, number of rounds made. -/
def loop (o : Opt Y S) (tol : ℚ) (s : S) : ℕ → Y → ℚ → Y × ℚ × ℕ
  | 0, y, v => (y, v, 0)
  | k + 1, y, old =>
    let r := iterate o s y
    if (old - r.2) / (|old| + 1 / 10 ^ 12) < tol then (r.1, r.2, 1)
    else
      let t := loop o tol s k r.1 r.2
      (t.1, t.2.1, t.2.2 + 1)

/-- `optimize`, L391-405: controls, value and number of rounds; without a round `i` and `values` are unbound. -/
def optimize (o : Opt Y S) (nIter : ℕ) (tol : ℚ) (y : Y) : Except PyErr (Y × ℚ × ℕ) :=
  let s := o.init y
  let first := iterate o s y
  if nIter / 10 = 0 then .error .unboundLocalError
  else .ok (loop o tol s (nIter / 10) first.1 first.2)

/-- `vanilla_gd=True`, L383-384. -/
def vanilla (grad : ℚ → ℚ) (value : ℚ → ℚ) : Opt ℚ Unit := { value := value, init := fun _ => (), step := fun y _ => (y - grad y * (1 / 10), ()) }

/-! The frame around it. -/

/-- Column names. -/
abbrev Col := List Char

/-- Scaler of the normalised columns: mean (zero unless `subtract_mean_when_normalizing`) and scale. -/
structure Scaling where
  mean : Col → ℚ
  scale : Col → ℚ
  normalized : Col → Bool

/-- The frame row as a function of the column, with its column order. -/
structure Frame where
  cols : List Col
  val : Col → ℚ

/-- `get_normalized_inputs`, L352-356. -/
def normalize (c : Scaling) (f : Frame) : Frame := { f with val := fun k => if c.normalized k then (f.val k - c.mean k) / c.scale k else f.val k }

/-- The inputs that are not controls, L358. -/
def exoPart (opt : List Col) (f : Frame) : List ℚ := (f.cols.filter (fun k => k ∉ opt)).map f.val
/-- The controls in the order of `optimization_vars`, L359. -/
def ctrlPart (opt : List Col) (f : Frame) : List ℚ := opt.map f.val

/-- `inputs.loc[:, names] = values` for one row. -/
def assign (names : List Col) (values : List ℚ) (f : Frame) : Frame := { f with val := fun k => match (names.zip values).lookup k with | some v => v | none => f.val k }

/-- The frame returned by `optimize`, L407-409. -/
def writeBack (c : Scaling) (opt : List Col) (y x : List ℚ) (f : Frame) : Frame :=
  let g := assign (f.cols.filter (fun k => k ∉ opt)) x (assign opt y f)
  { g with val := fun k => if c.normalized k then g.val k * c.scale k + c.mean k else g.val k }

/-! Causal penalty. -/

/-- `(~causal_df.astype(bool)).astype(float)`, L334. -/
def mask (causal : ℚ) : ℚ := if causal ≠ 0 then 0 else 1

/-- `np.tile(m, 2)` of the rows of a matrix with `n` columns, L335. -/
def tiled (n : ℕ) (m : ℕ → ℕ → ℚ) (i j : ℕ) : ℚ := m i (j % n)

/-- `_my_jmp`, L83-94, for a Jacobian with `n` outputs and `k` controls and the transposed matrix `m` (controls by outputs). -/
def penalty (n k : ℕ) (jac : ℕ → ℕ → ℚ) (m : ℕ → ℕ → ℚ) : ℚ :=
  (((List.range n).flatMap (fun i => (List.range k).map (fun j => |jac i j * m j i|))).sum) / (n * k)

/-- The penalty of PICNN for `n` targets and `k` controls, L333-337: the matrix is repeated for the second half of the outputs if `probabilistic`. -/
def causalPenalty (probabilistic : Bool) (n k : ℕ) (causal : ℕ → ℕ → ℚ) (jac : ℕ → ℕ → ℚ) : ℚ :=
  if probabilistic then penalty (2 * n) k jac (tiled n (fun i j => mask (causal i j))) else penalty n k jac (fun i j => mask (causal i j))

/-! Which loss a network is trained with. -/

/-- The functions and their parameters besides `params, inputs, targets`. -/
inductive Loss where | mse | probabilistic | causal | probabilisticCausal
deriving DecidableEq

inductive Kw where | model | causalMatrix | kind | distribution
deriving DecidableEq

/-- Keyword parameters in the signatures, base_nn.py L42, L88, ICNN.py L97, L104. -/
def Loss.accepts : Loss → List Kw
  | .mse => [.model]
  | .probabilistic => [.model, .kind, .distribution]
  | .causal => [.model, .causalMatrix]
  | .probabilisticCausal => [.model, .causalMatrix, .kind]

/-- The loss and the keywords bound by PICNN.set_arch, L333-339. -/
def pickLoss (causalDf probabilistic : Bool) : Loss × List Kw :=
  if causalDf then
    if probabilistic then (.probabilisticCausal, [.model, .causalMatrix, .kind]) else (.causal, [.model, .causalMatrix, .kind])
  else
    if probabilistic then (.probabilistic, [.model, .kind, .distribution]) else (.mse, [.model])

/-- Calling it: an unexpected keyword is a TypeError. -/
def callLoss (l : Loss × List Kw) : Except PyErr Loss := if l.2.all (fun k => decide (k ∈ l.1.accepts)) then .ok l.1 else .error .typeError

end PyF.NNOpt
