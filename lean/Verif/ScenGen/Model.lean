import Verif.Common
import Mathlib.Data.List.Sort
import Mathlib.Algebra.Order.Field.Basic

/-!
Model of `pyforecaster/copula.py` L35-101 (`HourlyGaussianCopula`: choice of the hour for `glasso_cv`, sampling), of
`pyforecaster/scenarios_generator.py` L40-213 (`ScenGen`: pre-fitting trees, predicting scenarios, interpolation) and of
`forecaster.py` L272-280 (`ScenarioGenerator.predict_scenarios`).

Values are elements of an ordered field `K`. The random generator, the estimated correlations, the normal distribution function and the
tree builder are parameters. Rows of a frame are represented by the hour of their time stamp where nothing else matters.
-/

namespace PyF.ScenGen
open PyF

/-! ### Arrays and the shape logic of `sample` -/

/-- A numpy array: its shape and its entries by index. -/
structure Arr (K : Type) where
  shape : List Nat
  val : List Nat → K

/-- The index before squeezing: zeros on the dropped axes. -/
def unsqueezeIdx : List Nat → List Nat → List Nat
  | [], _ => []
  | n :: sh, idx => if n = 1 then 0 :: unsqueezeIdx sh idx else idx.headD 0 :: unsqueezeIdx sh idx.tail

/-- `scipy.stats` `_squeeze_output`: every axis of size one is dropped. Applied by `mvr.rvs`, `copula.py` L92. -/
def squeeze {K : Type} (a : Arr K) : Arr K := { shape := a.shape.filter (fun n => decide (n ≠ 1)), val := fun idx => a.val (unsqueezeIdx a.shape idx) }

/-- `np.expand_dims(a, 0)`, copula.py L95. -/
def expandFirst {K : Type} (a : Arr K) : Arr K := { shape := 1 :: a.shape, val := fun idx => a.val idx.tail }

/-- `np.expand_dims(a, -1)`, L98. -/
def expandLast {K : Type} (a : Arr K) : Arr K := { shape := a.shape ++ [1], val := fun idx => a.val idx.dropLast }

/-- `np.swapaxes(a, 1, 2)`, L99; `AxisError` (a `ValueError`) with less than three axes. More than three do not occur. -/
def swapLast {K : Type} (a : Arr K) : Except PyErr (Arr K) :=
  match a.shape with
  | [x, y, z] => .ok { shape := [x, z, y], val := fun idx => match idx with | [i, j, k] => a.val [i, k, j] | l => a.val l }
  | _ => .error .valueError

/-- Broadcasting of a shape into a target of the same number of axes. -/
def fits : List Nat → List Nat → Bool
  | [], [] => true
  | s :: ss, t :: ts => (s = t || s = 1) && fits ss ts
  | _, _ => false

/-- The index used under broadcasting. -/
def clampIdx : List Nat → List Nat → List Nat
  | s :: ss, i :: is => (if s = 1 then 0 else i) :: clampIdx ss is
  | _, _ => []

/-- `copula_samples[hour_filt, :, :] = ...`, L100: the values written, `ValueError` if the shapes do not broadcast. -/
def assign {K : Type} (target : List Nat) (a : Arr K) : Except PyErr (Nat → Nat → Nat → K) :=
  if fits a.shape target then .ok (fun i j k => a.val (clampIdx a.shape [i, j, k])) else .error .valueError

/-- L92-100 for one hour: `k` rows, `n` scenarios, `d` steps; `draw` are the normal draws by row, scenario, step. -/
def sampleHour {K : Type} (k n d : Nat) (draw : Nat → Nat → Nat → K) : Except PyErr (Nat → Nat → Nat → K) :=
  let a := squeeze { shape := [k, n, d], val := fun idx => match idx with | [i, j, s] => draw i j s | _ => draw 0 0 0 }
  let a := if k = 1 then expandFirst a else a
  let a := if a.shape.length = 2 then expandLast a else a
  match swapLast a with
  | .error e => .error e
  | .ok a => assign [k, d, n] a

/-! ### The copula -/

/-- `np.unique(index.hour)`: the hours that occur, in increasing order. -/
def uniqueHours (hours : List Nat) : List Nat := (List.range 24).filter (fun h => decide (h ∈ hours))

/-- Number of rows of hour `h` before row `i`: the position of row `i` under the mask `hour_filt` if its hour is `h`. -/
def maskPos (hours : List Nat) (h i : Nat) : Nat := (hours.take i).count h

/-- A covariance model: correlation matrices by hour, as opaque values. -/
abbrev Pars (Cov : Type) := Nat → Option Cov

/-- The loop of `sample`, L84-100, from the `c`-th call of the generator on. `rvs c cov k n` are the draws of the `c`-th call with that covariance
for `k` rows and `n` scenarios; with a fixed `random_state` the generator is seeded anew in each call, then they do not depend on `c`.
`Phi` is `norm.cdf`. -/
def sampleLoop {K Cov : Type} (Phi : K → K) (pars : Pars Cov) (rvs : Nat → Cov → Nat → Nat → Nat → Nat → Nat → K) (dim n : Nat) (hours : List Nat) :
    Nat → List Nat → (Nat → Nat → Nat → K) → Except PyErr (Nat → Nat → Nat → K)
  | _, [], out => .ok out
  | c, h :: hs, out =>
    match pars h with
    | none => .error .keyError
    | some cov =>
      match sampleHour (hours.count h) n dim (rvs c cov (hours.count h) n) with
      | .error e => .error e
      | .ok a => sampleLoop Phi pars rvs dim n hours (c + 1) hs (fun i s k => if hours[i]? = some h then Phi (a (maskPos hours h i) s k) else out i s k)

/-- `HourlyGaussianCopula.sample`, L73-101. -/
def sample {K Cov : Type} [Zero K] (Phi : K → K) (pars : Pars Cov) (rvs : Nat → Cov → Nat → Nat → Nat → Nat → Nat → K) (dim n : Nat) (hours : List Nat) :
    Except PyErr (Nat → Nat → Nat → K) :=
  sampleLoop Phi pars rvs dim n hours 0 (uniqueHours hours) (fun _ _ _ => 0)

/-- Insertion into a list of counts in decreasing order. -/
def insertDesc (x : Nat × Nat) : List (Nat × Nat) → List (Nat × Nat)
  | [] => [x]
  | y :: l => if y.2 < x.2 then x :: y :: l else y :: insertDesc x l

/-- `index.hour.value_counts()`: pairs of hour and count, most frequent first. -/
def valueCounts (hours : List Nat) : List (Nat × Nat) := ((uniqueHours hours).map (fun h => (h, hours.count h))).foldr insertDesc []

/-- `argmax` of a list of counts: position of the first maximum (0 for an empty list). -/
def argmaxPos (l : List Nat) : Nat := l.idxOf (l.foldr max 0)

/-- The hour on which the penalty of `glasso_cv` is cross validated, L42: `y.index.hour.value_counts().argmax()`. -/
def cvHour (hours : List Nat) : Nat := argmaxPos ((valueCounts hours).map (·.2))

/-- L40-45 with `cov_est_method = 'glasso_cv'`: the rows used for the cross validation; sklearn refuses an empty sample with `ValueError`. -/
def glassoRows (hours : List Nat) : Except PyErr (List Nat) :=
  let rows := (List.range hours.length).filter (fun (i : Nat) => decide (hours[i]? = some (cvHour hours)))
  if rows = [] then .error .valueError else .ok rows

/-! ### Interpolation -/

section
variable {K : Type} [Field K] [LinearOrder K]

/-- `scipy.interpolate.interp1d(x, y, fill_value='extrapolate')` evaluated at `u`, as in `interp_scens`, scenarios_generator.py L211-212: points sorted by `x`, bracket by
`searchsorted` clipped to the inner positions, straight line through the two points. -/
def interp (xs ys : List K) (u : K) : K :=
  let pts := (xs.zip ys).insertionSort (fun a b => a.1 ≤ b.1)
  let i := min (max (pts.countP (fun p => decide (p.1 < u))) 1) (pts.length - 1)
  let lo := pts.getD (i - 1) (0, 0)
  let hi := pts.getD i (0, 0)
  (hi.2 - lo.2) / (hi.1 - lo.1) * (u - lo.1) + lo.2

/-- `interp_scens`, scenarios_generator.py L194-213, followed by the assignment to a slice with one row per predicted step (L172, L177): `dim` steps sampled, the
quantiles of `qs.length` steps. -/
def interpScens (levels : List K) (qs : List (List K)) (dim : Nat) (u : Nat → Nat → K) : Except PyErr (Nat → Nat → K) :=
  if qs.any (fun q => decide (q.length ≠ levels.length)) then .error .valueError
  else if dim < qs.length then .error .indexError
  else if qs.length < dim then .error .valueError
  else .ok (fun s k => interp levels (qs.getD s []) (u s k))

/-- The rows of scenarios_generator.py L170-177: `interp_scens` row by row. -/
def interpRows (levels : List K) (dim : Nat) (u : Nat → Nat → Nat → K) : Nat → List (List (List K)) → Except PyErr (List (Nat → Nat → K))
  | _, [] => .ok []
  | t, q :: qs =>
    match interpScens levels q dim (u t) with
    | .error e => .error e
    | .ok f =>
      match interpRows levels dim u (t + 1) qs with
      | .error e => .error e
      | .ok fs => .ok (f :: fs)

/-- Scenarios of one observation: number of rows and values by row and scenario. -/
structure Scens (K : Type) where
  rows : Nat
  val : Nat → Nat → K

/-- `sample_scenarios`, scenarios_generator.py L154-178. `u` is the result of the copula. `ini` are the uniform draws scaled by 1e-6 of L169, `noise` the normal draws scaled
by 1e-9 of L178, by observation, row and scenario. All observations have quantiles for the same `steps`. -/
def sampleScenarios (nx : Nat) (levels : List K) (steps dim : Nat) (quantiles : List (List (List K))) (additional : Bool) (initObs : Option (List K))
    (u : Except PyErr (Nat → Nat → Nat → K)) (ini : Nat → Nat → K) (noise : Nat → Nat → Nat → K) : Except PyErr (List (Scens K)) :=
  if quantiles.length ≠ nx then .error .assertionError
  else
    match u with
    | .error e => .error e
    | .ok u =>
      if additional then
        let obs := initObs.getD (List.replicate nx 0)
        if obs.length ≠ nx then .error .assertionError
        else
          match interpRows levels dim u 0 quantiles with
          | .error e => .error e
          | .ok fs => .ok (fs.mapIdx (fun t f => { rows := steps + 1, val := fun s k => (if s = 0 then obs.getD t 0 + ini t k else f (s - 1) k) + noise t s k }))
      else
        match interpRows levels dim u 0 quantiles with
        | .error e => .error e
        | .ok fs => .ok (fs.mapIdx (fun t f => { rows := steps, val := fun s k => f s k + noise t s k }))

/-- `ScenGen.predict_scenarios` on an array, scenarios_generator.py L74-106: the number of levels must be the size of the last axis. -/
def predictScenarios (nx : Nat) (levels : List K) (steps dim nq : Nat) (quantiles : List (List (List K))) (additional : Bool) (initObs : Option (List K))
    (u : Except PyErr (Nat → Nat → Nat → K)) (ini : Nat → Nat → K) (noise : Nat → Nat → Nat → K) : Except PyErr (List (Scens K)) :=
  if levels.length ≠ nq then .error .assertionError else sampleScenarios nx levels steps dim quantiles additional initObs u ini noise

/-- `ScenarioGenerator.predict_scenarios`, `forecaster.py` L272-280: no initial observations are passed on; the quantiles re-estimated from the
scenarios, one row of them per row of the scenarios, are subtracted from the predicted ones, which needs equally many rows or one. -/
def forecasterScenarios (nx : Nat) (levels : List K) (steps dim nq : Nat) (quantiles : List (List (List K))) (additional : Bool)
    (u : Except PyErr (Nat → Nat → Nat → K)) (ini : Nat → Nat → K) (noise : Nat → Nat → Nat → K) : Except PyErr (List (Scens K)) :=
  match predictScenarios nx levels steps dim nq quantiles additional none u ini noise with
  | .error e => .error e
  | .ok out =>
    let rows := if additional then steps + 1 else steps
    if rows = steps ∨ rows = 1 ∨ steps = 1 then .ok out else .error .valueError

end

/-- Columns of a quantile frame as pairs (outer, inner) of labels in order, and the array built by scenarios_generator.py L96, L120:
`np.dstack([quantiles[q].values for q in outer labels])`: entry `[inner position, outer position]`. Columns are the product of the labels. -/
def stackFrame {K : Type} (nInner : Nat) (row : Nat → K) : Nat → Nat → K := fun i o => row (o * nInner + i)

/-! ### Pre-fitted trees -/

/-- The loop scenarios_generator.py L61-68 of `fit`: for each of the 24 hours the first row of that hour (an `IndexError` if there is none; the hour is also looked up
in the error distributions of the hours of `x`, L57-59, the same rows), then the tree built from its scenarios, starting from the tree of hour 0 if
`h > 0`. `gen h start` is the tree builder on the scenarios sampled for hour `h`. -/
def prefitLoop {T : Type} (hours : List Nat) (gen : Nat → Option T → Except PyErr T) : List Nat → (Nat → Option T) → Except PyErr (Nat → Option T)
  | [], trees => .ok trees
  | h :: hs, trees =>
    if h ∉ hours then .error .indexError
    else
      match gen h (if h > 0 then trees 0 else none) with
      | .error e => .error e
      | .ok t => prefitLoop hours gen hs (fun k => if k = h then some t else trees k)

/-- Pre-fitting in `ScenGen.fit`, scenarios_generator.py L53-70: only for the hourly copula. -/
def prefit {T : Type} (hourly : Bool) (hours : List Nat) (gen : Nat → Option T → Except PyErr T) : Except PyErr (Nat → Option T) :=
  if hourly then prefitLoop hours gen (List.range 24) (fun _ => none) else .error .notImplementedError

/-- `predict_trees` with `online_tree_reduction=False`, scenarios_generator.py L133-152 (sequential branch) and `tree_gen`, L188-192: a copy of the tree of the row's hour
with the prediction superimposed. `sup` is `superimpose_signal_to_tree` on the copy, its argument includes the additional node. -/
def offlineTrees {T P : Type} (trees : Nat → Option T) (sup : P → T → T) : List (Nat × P) → Except PyErr (List T)
  | [] => .ok []
  | (h, p) :: rows =>
    match trees h with
    | none => .error .keyError
    | some t =>
      match offlineTrees trees sup rows with
      | .error e => .error e
      | .ok out => .ok (sup p t :: out)

end PyF.ScenGen
