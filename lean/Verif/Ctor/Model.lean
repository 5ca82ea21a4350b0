import Verif.Common
import Mathlib.Algebra.Order.Field.Rat
import Mathlib.Data.Rat.Floor

/-!
What happens to the keywords of a constructor: `Fourier_es`, `FK` and `FK_multi` (pyforecaster/forecasting_models/fast_adaptive_models.py L58-98, L154-188, L306-347, L427-504),
`ScenarioGenerator.__init__` (forecaster.py L57-83), `ScenGen.__init__` (scenarios_generator.py L18-40) with the maps of dictionaries.py L27-33, and the search of `FK_multi`
(fast_adaptive_models.py L506-512 with holtwinters.py L75-80, L103-111).

Simplifications: a value is a number, a string, a Boolean, `None`, a list of strings or something else; `submodels_pars` and `base_predictor` of `FK_multi` are separate
arguments, as are the values of `np.linspace`; `m`, `n_sa`, `n_predictors` and `periodicity` are whole numbers; validation of `max_scengen_rows` is left out (the classes here reject it); what a fitted expert computes is not modelled here.
-/

namespace PyF.Ctor

open PyF

/-- A value. -/
inductive Val where
  | num (q : ℚ)
  | str (s : String)
  | bool (b : Bool)
  | null
  | strs (l : List String)
  | other (k : ℕ)
  deriving DecidableEq

/-- A dictionary of keywords. -/
abbrev Dict := String → Option Val

/-- `d[k] = v`. -/
def Dict.set (d : Dict) (k : String) (v : Val) : Dict := fun j => if j = k then some v else d j

/-- `d.update(e)`. -/
def Dict.update (d e : Dict) : Dict := fun k => (e k).or (d k)

/-- Keywords that bind to named parameters in a call `f(**d)`. -/
def Dict.named (d : Dict) (names : List String) : Dict := fun k => if k ∈ names then d k else none

/-- Keywords that go to `**kwargs`. -/
def Dict.rest (d : Dict) (names : List String) : Dict := fun k => if k ∈ names then none else d k

/-! ### Scenario generators -/

/-- Parameters of the copula classes, dictionaries.py L27-28, copula.py L32, L105. -/
def copulaSig (s : String) : Option (List String) :=
  if s = "HourlyGaussianCopula" then some ["cov_est_method", "logger"]
  else if s = "ConditionalGaussianCopula" then some ["cov_est_method", "conditional_on", "logger"]
  else none

/-- Parameters of the tree classes, dictionaries.py L30-33, tree_builders.py L137, L207, L251, L262. -/
def treeSig (s : String) : Option (List String) :=
  if s = "DiffTree" then some ["tree", "nodes_at_step", "savepath", "init", "base_tree", "learning_rate"]
  else if s = "NeuralGas" then some ["tree", "nodes_at_step", "savepath", "init", "base_tree"]
  else if s = "ScenredTree" ∨ s = "QuantileTree" then some ["tree", "nodes_at_step", "savepath"]
  else none

/-- Named parameters of `ScenGen.__init__`, scenarios_generator.py L18-20. -/
def scenGenNames : List String :=
  ["copula_type", "tree_type", "online_tree_reduction", "q_vect", "nodes_at_step", "max_iterations", "parallel_preds", "additional_node", "prefit_trees"]

/-- A `ScenGen` object: the values of its named parameters and the arguments of its copula and tree. -/
structure SG where
  own : Dict
  copula : Dict
  tree : Dict

/-- `ScenGen(**d)`, scenarios_generator.py L18-40; `KeyError` for an unknown copula or tree. -/
def scenGen (d : Dict) : Except PyErr SG :=
  match (d "copula_type").getD (.str "HourlyGaussianCopula"), (d "tree_type").getD (.str "ScenredTree") with
  | .str c, .str t =>
    match copulaSig c with
    | none => .error .keyError
    | some cs =>
      match treeSig t with
      | none => .error .keyError
      | some ts => .ok ⟨d.named scenGenNames, (d.rest scenGenNames).named cs, ((d.rest scenGenNames).named ts)⟩
  | _, _ => .error .keyError

/-- Named parameters of `ScenarioGenerator.__init__`, forecaster.py L57-60. -/
def scenarioGeneratorNames : List String :=
  ["q_vect", "nodes_at_step", "val_ratio", "logger", "n_scen_fit", "additional_node", "formatter", "conditional_to_hour", "max_scengen_rows", "scengen_random_state"]

/-- The part every forecaster has: named parameters of `ScenarioGenerator` and the `ScenGen` object. -/
structure Gen where
  own : Dict
  sg : SG

/-- `ScenarioGenerator(**d)`, forecaster.py L57-83: `q_vect`, `nodes_at_step` and `additional_node` are passed on. -/
def scenarioGenerator (d : Dict) : Except PyErr Gen :=
  match scenGen ((d.rest scenarioGeneratorNames).update (d.named ["q_vect", "nodes_at_step", "additional_node"])) with
  | .error e => .error e
  | .ok sg => .ok ⟨d.named scenarioGeneratorNames, sg⟩

/-! ### Stateful forecasters -/

/-- Named parameters of `StatefulForecaster.__init__`, fast_adaptive_models.py L58-60. -/
def statefulNames : List String :=
  ["target_name", "targets_names", "n_sa", "m", "val_ratio", "optimize_hyperpars", "optimization_budget", "verbose", "nodes_at_step", "q_vect"]

/-- Their defaults; `Fourier_es` and `FK_multi` have the same except for `verbose` and `optimize_hyperpars`, which they always pass on. -/
def statefulDefault (k : String) : Val :=
  if k = "target_name" then .str "target" else if k = "n_sa" then .num 1 else if k = "m" then .num 24 else if k = "val_ratio" then .num (4 / 5)
  else if k = "optimize_hyperpars" then .bool true else if k = "optimization_budget" then .num 100 else if k = "verbose" then .bool true else .null

/-- Keywords `_reject_postfit_row_cap_kwargs` refuses, L10-14. -/
def rejected : List String := ["max_scengen_rows", "scengen_random_state"]

/-- A stateful forecaster: attributes named like parameters, the dictionary `init_pars`, and the generator. -/
structure Obj where
  attrs : Dict
  init : Dict
  gen : Gen

/-- `[target_name] if targets_names is None else targets_names`, L82. -/
def targetsOf (target targets : Val) : Val :=
  match targets, target with
  | .null, .str s => .strs [s]
  | .null, _ => .other 0
  | v, _ => v

/-- Values of the named parameters, with defaults. -/
def Dict.withDefaults (d : Dict) (names : List String) (dflt : String → Val) : Dict := fun k => if k ∈ names then some ((d k).getD (dflt k)) else none

/-- `StatefulForecaster.__init__(**d)`, L58-98. `nodes_at_step` is not kept as an attribute. -/
def stateful (d : Dict) : Except PyErr Obj :=
  let v := d.withDefaults statefulNames statefulDefault
  match v "m" with
  | some (.num m) =>
    if m ≤ 0 then .error .assertionError
    else if rejected.any (fun k => (d.rest statefulNames k).isSome) then .error .typeError
    else
      let ts := targetsOf ((v "target_name").getD .null) ((v "targets_names").getD .null)
      match scenarioGenerator ((d.rest statefulNames).update (v.named ["q_vect", "nodes_at_step", "val_ratio"])) with
      | .error e => .error e
      | .ok g => .ok ⟨(fun k => if k = "nodes_at_step" then none else if k = "targets_names" then some ts else v k),
                      ((v.set "targets_names" ts).update (d.rest statefulNames)), g⟩
  | _ => .error .typeError

/-- The two classes of experts. -/
inductive Pred where
  | fourier
  | fk
  deriving DecidableEq

/-- Parameters of the class in addition to those of `StatefulForecaster`, L154-156, L306-308. -/
def Pred.own : Pred → List String
  | .fourier => ["alpha", "omega", "n_harmonics", "periodicity"]
  | .fk => ["alpha", "omega", "n_harmonics", "periodicity", "r", "q"]

/-- All its named parameters. -/
def Pred.names (p : Pred) : List String := statefulNames ++ p.own

/-- Defaults, L154-156, L306-308. -/
def Pred.default (p : Pred) (k : String) : Val :=
  if k = "alpha" then .num (4 / 5) else if k = "omega" then .num (99 / 100) else if k = "n_harmonics" then .num 3 else if k = "periodicity" then .null
  else if k = "r" then .num (1 / 10) else if k = "q" then .num (1 / 10)
  else if k = "verbose" then (match p with | .fourier => .bool false | .fk => .bool true) else statefulDefault k

/-- `0 < a < 1`. -/
def openUnit : Option Val → Except PyErr Unit
  | some (.num a) => if 0 < a ∧ a < 1 then .ok () else .error .assertionError
  | _ => .error .typeError

/-- `0 < a`. -/
def positive : Option Val → Except PyErr Unit
  | some (.num a) => if 0 < a then .ok () else .error .assertionError
  | _ => .error .typeError

/-- `p(**d)`, L154-188, L306-347. -/
def Pred.build (p : Pred) (d : Dict) : Except PyErr Obj :=
  let v := d.withDefaults p.names p.default
  match openUnit (v "alpha"), openUnit (v "omega"), positive (v "n_harmonics") with
  | .ok _, .ok _, .ok _ =>
    match stateful ((d.rest p.names).update (v.named statefulNames)) with
    | .error e => .error e
    | .ok o => .ok ⟨fun k => if k = "periodicity" then (if v "periodicity" = some .null then v "n_sa" else v "periodicity") else if k ∈ p.own then v k else o.attrs k,
                    o.init.update (v.named p.own), o.gen⟩
  | .error e, _, _ => .error e
  | _, .error e, _ => .error e
  | _, _, .error e => .error e

/-- `get_params`, forecaster.py L93-94: named parameters that are attributes. -/
def Pred.getParams (p : Pred) (o : Obj) : Dict := fun k => if k ∈ p.names then o.attrs k else none

/-! ### FK_multi -/

/-- Parameters of `FK_multi` in addition to those of `StatefulForecaster`, L427-430. -/
def multiOwn : List String :=
  ["n_predictors", "alphas", "omegas", "ns_harmonics", "periodicity", "r", "q", "base_predictor", "optimize_submodels_hyperpars", "submodels_pars"]

/-- All its named parameters. -/
def multiNames : List String := statefulNames ++ multiOwn

/-- Defaults, L427-430. -/
def multiDefault (k : String) : Val :=
  if k = "n_predictors" then .num 4 else if k = "r" then .num (1 / 10) else if k = "q" then .num (1 / 10) else if k = "optimize_submodels_hyperpars" then .bool true
  else if k = "optimize_hyperpars" then .bool false
  else if k ∈ statefulNames then statefulDefault k else .null

/-- Windows of the experts, L476-487: `lin j` is entry `j` of `np.linspace(1, m, n + 1)`; the first entry is left out. -/
def windows (lin : ℕ → ℚ) (n nsa period : ℕ) : List ℕ :=
  let ms := (List.range n).map (fun j => max ⌊lin (j + 1)⌋.toNat nsa)
  if ms.any (fun m => decide (m < period)) then ms.map (fun m => max m period) else ms

/-- `submodels_init_pars` of L442 after L472-473. -/
def subInit (stInit : Dict) (optSub : Val) : Dict := (stInit.set "optimize_hyperpars" optSub).set "verbose" (.bool true)

/-- A whole number. -/
def natOf : Option Val → Option ℕ
  | some (.num q) => some ⌊q⌋.toNat
  | _ => none

/-- `periodicity if periodicity is not None else n_sa`, L451. -/
def periodOf (v : Dict) : Option ℕ := if v "periodicity" = some .null then natOf (v "n_sa") else natOf (v "periodicity")

/-- `base_predictor(**submodels_pars[i])`, L501. -/
def buildNth (base : Pred) (l : List Dict) (i : ℕ) : Except PyErr Obj :=
  match l[i]? with
  | some d => base.build d
  | none => .error .indexError

/-- The experts, L476-504. -/
def experts (lin : ℕ → ℕ → ℕ → ℚ) (base : Pred) (subPars : Option (List Dict)) (si : Dict) (m nsa n p : ℕ) : Except PyErr (List Obj) :=
  match subPars with
  | some l => (List.range n).mapM (buildNth base l)
  | none => (windows (lin m n) n nsa p).mapM (fun (w : ℕ) => base.build (si.set "m" (.num (w : ℚ))))

/-- `FK_multi(base_predictor=base, submodels_pars=subPars, **d)` as far as the experts are concerned, L427-504; `lin m n j` is entry `j` of `np.linspace(1, m, n + 1)`. -/
def multi (lin : ℕ → ℕ → ℕ → ℚ) (base : Pred) (subPars : Option (List Dict)) (d : Dict) : Except PyErr (List Obj) :=
  let v := d.withDefaults multiNames multiDefault
  match natOf (v "m"), natOf (v "n_sa"), natOf (v "n_predictors"), periodOf v with
  | some m, some nsa, some n, some p =>
    match stateful ((d.rest multiNames).update (v.named statefulNames)) with
    | .error e => .error e
    | .ok o => if p < m then experts lin base subPars (subInit o.init ((v "optimize_submodels_hyperpars").getD .null)) m nsa n p else .error .assertionError
  | _, _, _, _ => .error .typeError

/-- An expert after `fit`: if it searches, the parameters of its best trial, and the search is off (see Tune). -/
def fitExpert (p : Pred) (best : List (String × Val)) (o : Obj) : Except PyErr Obj :=
  if o.attrs "optimize_hyperpars" = some (.bool true) then p.build ((best.foldl (fun d b => d.set b.1 b.2) o.init).set "optimize_hyperpars" (.bool false)) else .ok o

/-- `FK_multi(**d).fit(x)` with `optimize_hyperpars=True`, L506-512 with holtwinters.py L75-80, L103-111: a model with the same keywords is built and fitted, the parameters
of its experts are read off with `get_params`, and the experts are built anew from them. -/
def tunedMulti (lin : ℕ → ℕ → ℕ → ℚ) (base : Pred) (best : ℕ → List (String × Val)) (subPars : Option (List Dict)) (d : Dict) : Except PyErr (List Obj) :=
  match multi lin base subPars (d.set "optimize_hyperpars" (.bool false)) with
  | .error e => .error e
  | .ok es =>
    match es.zipIdx.mapM (fun e => fitExpert base (best e.2) e.1) with
    | .error e => .error e
    | .ok fs => multi lin base (some (fs.map base.getParams)) ((d.set "optimize_hyperpars" (.bool false)).set "optimize_submodels_hyperpars" (.bool false))

end PyF.Ctor
