import Verif.ScenGen.Model
import Verif.TreeBuild.Model
import Mathlib.Algebra.Order.Monoid.Unbundled.WithTop

/-!
Model of `ScenarioGenerator.predict_trees` (`pyforecaster/forecaster.py` L282-311) and of `ScenGen.predict_trees`
(`pyforecaster/scenarios_generator.py` L108-152), with what the tree builders keep between two calls (`pyforecaster/tree_builders.py`
L67-85, L215-217).

Trees are lists of nodes (`Verif.Scenred.TreeModel`); values of the nodes are numbers or NaN (`⊥`). Scenarios are those of
`Verif.ScenGen`. Time stamps are of a type `I`. The branch without online reduction that goes through `fdf_parallel` is compared with
the sequential one in `Verif.BigData` (C66); here it is the sequential one. What an object keeps after an exception is not modelled.
-/

namespace PyF.PredTrees
open PyF ScenGen Scenred

variable {I K σ : Type}

/-- A scenario tree; `⊥` is NaN. -/
abbrev Tree (K : Type) := List (Node (WithBot K))

/-! ### The initial observations -/

/-- What the caller passes as `init_obs`: nothing, a number, a list or array, or a series with labels. -/
inductive InitObs (I K : Type)
  | absent
  | scalar (c : K)
  | values (l : List K)
  | series (l : List (I × K))

/-- `np.atleast_1d(init_obs)`, scenarios_generator.py L165: the values in order; labels are dropped. -/
def onlineObs : InitObs I K → Option (List K)
  | .absent => none
  | .scalar c => some [c]
  | .values l => some l
  | .series l => some (l.map (·.2))

/-- `pd.Series(init_obs, index=predictions.index)`, scenarios_generator.py L137-139: the first prediction if nothing was passed, a number
is repeated, the length of an array must be right, a series is looked up by label (NaN for missing ones; repeated labels cannot be
looked up unless the index is the same). -/
def offlineObs [DecidableEq I] (idx : List I) (firsts : List K) : InitObs I K → Except PyErr (List (WithBot K))
  | .absent => .ok (firsts.map (fun (v : K) => (v : WithBot K)))
  | .scalar c => .ok (idx.map (fun _ => (c : WithBot K)))
  | .values l => if l.length = idx.length then .ok (l.map (fun (v : K) => (v : WithBot K))) else .error .valueError
  | .series l =>
    if l.map (·.1) = idx then .ok (l.map (fun (p : I × K) => (p.2 : WithBot K)))
    else if (l.map (·.1)).Nodup then
      .ok (idx.map (fun (i : I) => match l.find? (fun (p : I × K) => decide (p.1 = i)) with | some p => (p.2 : WithBot K) | none => ⊥))
    else .error .valueError

/-! ### What the tree builder keeps -/

/-- The attributes of a tree builder that `gen_tree` changes: the learning rate of a `DiffTree` and the numbers of nodes. -/
structure Obj where
  rate : Option ℚ
  own : Option (List ℕ)

/-- One call of `gen_tree` on `n` scenarios: the learning rate is set at the first call (tree_builders.py L216-217), the numbers of nodes
are those passed or those of the object or the default ones (L67-75) and their first entry is set to 1 in place (L77-85). Returned are
the tree, the object and the passed numbers afterwards. `body` is the rest of the call (it does not use the rate except for
`DiffTree`); `dflt` are the default numbers. -/
def genTree {T S : Type} (dflt : Except PyErr (List ℕ)) (body : ℚ → List ℕ → S → Except PyErr T) (n : ℕ) (o : Obj) (nodes : Option (List ℕ)) (sc : S) :
    Except PyErr (T × Obj × Option (List ℕ)) :=
  let r := o.rate.getD (max (1 / (n : ℚ)) (1 / 10))
  match nodes with
  | some ns =>
    match TreeBuild.effectiveNodes n ns with
    | .error e => .error e
    | .ok (eff, after) =>
      match body r eff sc with
      | .error e => .error e
      | .ok t => .ok (t, { o with rate := some r }, some after)
  | none =>
    match dflt with
    | .error e => .error e
    | .ok d =>
      match TreeBuild.effectiveNodes n (o.own.getD d) with
      | .error e => .error e
      | .ok (eff, after) =>
        match body r eff sc with
        | .error e => .error e
        | .ok t => .ok (t, { rate := some r, own := o.own.map (fun _ => after) }, none)

/-- The sequential loop, scenarios_generator.py L130-132: the same object and the same array of numbers in every call. -/
def seqTrees {T S : Type} (gen : Obj → Option (List ℕ) → S → Except PyErr (T × Obj × Option (List ℕ))) :
    Obj → Option (List ℕ) → List S → Except PyErr (List T × Obj × Option (List ℕ))
  | o, ns, [] => .ok ([], o, ns)
  | o, ns, sc :: scs =>
    match gen o ns sc with
    | .error e => .error e
    | .ok (t, o', ns') =>
      match seqTrees gen o' ns' scs with
      | .error e => .error e
      | .ok (ts, o'', ns'') => .ok (t :: ts, o'', ns'')

/-- The parallel loop, scenarios_generator.py L127-128: every call works on a copy of the object and of the numbers. -/
def parTrees {T S : Type} (gen : Obj → Option (List ℕ) → S → Except PyErr (T × Obj × Option (List ℕ))) (o : Obj) (ns : Option (List ℕ)) : List S → Except PyErr (List T)
  | [] => .ok []
  | sc :: scs =>
    match gen o ns sc with
    | .error e => .error e
    | .ok (t, _, _) =>
      match parTrees gen o ns scs with
      | .error e => .error e
      | .ok ts => .ok (t :: ts)

/-- The branch with online reduction from the scenarios on, scenarios_generator.py L113-114 and L126-132: trees, object and the caller's
numbers of nodes afterwards (with an additional node they are copied). A pool of `cpu_count() - 1` workers needs at least one. -/
def onlineTrees {T S : Type} (cpu : ℕ) (additional parallel : Bool) (gen : Obj → Option (List ℕ) → S → Except PyErr (T × Obj × Option (List ℕ))) (o : Obj)
    (nodes : Option (List ℕ)) (scs : List S) : Except PyErr (List T × Obj × Option (List ℕ)) :=
  let ns := if additional then nodes.map (fun l => 1 :: l) else nodes
  if parallel && decide (1 < scs.length) then
    if cpu ≤ 1 then .error .valueError
    else
      match parTrees gen o ns scs with
      | .error e => .error e
      | .ok ts => .ok (ts, o, nodes)
  else
    match seqTrees gen o ns scs with
    | .error e => .error e
    | .ok (ts, o', ns') => .ok (ts, o', if additional then nodes else ns')

/-! ### `predict_trees` -/

/-- The settings of a `ScenGen` object that matter. -/
structure Cfg where
  online : Bool
  additional : Bool
  parallel : Bool
  cpu : ℕ

/-- The forecasts of the rows of `x`: time stamps, point predictions, quantiles by row, step and level. -/
structure Forecast (I K : Type) where
  idx : List I
  preds : List (List K)
  quantiles : List (List (List K))

/-- What the sampling of scenarios uses: levels, numbers of steps predicted and sampled, the result of the copula and the two noises of
`sampleScenarios`. -/
structure Draws (K : Type) where
  levels : List K
  steps : ℕ
  dim : ℕ
  u : Except PyErr (ℕ → ℕ → ℕ → K)
  ini : ℕ → ℕ → K
  noise : ℕ → ℕ → ℕ → K

/-- The signal superimposed on the tree of a row. -/
def signal (row : List (WithBot K)) : ℕ → WithBot K := fun t => row.getD t ⊥

section
variable [Field K] [LinearOrder K] [DecidableEq I]

/-- The branch without online reduction, scenarios_generator.py L133-150 and `tree_gen`, L188-192. -/
def offline (additional : Bool) (hour : I → ℕ) (trees : ℕ → Option (Tree K)) (fc : Forecast I K) (init : InitObs I K) : Except PyErr (List (Tree K)) :=
  if (List.range 24).all (fun (h : ℕ) => (trees h).isNone) then .error .assertionError
  else
    let plain := fc.preds.map (fun (p : List K) => p.map (fun (v : K) => (v : WithBot K)))
    if additional then
      match offlineObs fc.idx (fc.preds.map (fun (p : List K) => p.headD 0)) init with
      | .error e => .error e
      | .ok obs => offlineTrees trees (fun row t => superimpose (signal row) t) ((fc.idx.map hour).zip (List.zipWith (fun o p => o :: p) obs plain))
    else offlineTrees trees (fun row t => superimpose (signal row) t) ((fc.idx.map hour).zip plain)

/-- `ScenGen.predict_trees`, scenarios_generator.py L108-152, with quantiles as an array and point predictions as a frame. -/
def scenGenTrees (c : Cfg) (gen : Obj → Option (List ℕ) → Scens K → Except PyErr (Tree K × Obj × Option (List ℕ))) (o : Obj) (hour : I → ℕ) (trees : ℕ → Option (Tree K))
    (nodes : Option (List ℕ)) (init : InitObs I K) (fc : Forecast I K) (d : Draws K) : Except PyErr (List (Tree K) × Obj × Option (List ℕ)) :=
  if nodes.isSome && !c.online then .error .assertionError
  else if c.online then
    match sampleScenarios fc.idx.length d.levels d.steps d.dim fc.quantiles c.additional (onlineObs init) d.u d.ini d.noise with
    | .error e => .error e
    | .ok scs => onlineTrees c.cpu c.additional c.parallel gen o nodes scs
  else
    match offline c.additional hour trees fc init with
    | .error e => .error e
    | .ok ts => .ok (ts, o, nodes)

/-- What the forecaster returns: a list of trees, or a bare tree. -/
inductive Out (K : Type)
  | one (t : Tree K)
  | list (ts : List (Tree K))

/-- `ScenarioGenerator.predict_trees`, forecaster.py L282-311: the numbers of nodes are passed on with online reduction only; a list of
length one is unpacked. -/
def predictTrees (c : Cfg) (gen : Obj → Option (List ℕ) → Scens K → Except PyErr (Tree K × Obj × Option (List ℕ))) (o : Obj) (hour : I → ℕ) (trees : ℕ → Option (Tree K))
    (nodes : Option (List ℕ)) (init : InitObs I K) (fc : Forecast I K) (d : Draws K) : Except PyErr (Out K × Obj × Option (List ℕ)) :=
  match scenGenTrees c gen o hour trees (if c.online then nodes else none) init fc d with
  | .error e => .error e
  | .ok (ts, o', ns') =>
    .ok (match ts with | [t] => .one t | ts => .list ts, o', if c.online then ns' else nodes)

end

end PyF.PredTrees
