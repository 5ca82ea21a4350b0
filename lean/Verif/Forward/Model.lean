import Verif.Common
import Mathlib.Data.List.Lookmap
import Mathlib.Data.List.Nodup

/-!
How arguments of constructors travel to the base classes and to attributes of the object: Python call binding, and as data the signature, the assignments and the call of the base
constructor of every class of the library that has a base class of the library.

Simplifications: an expression other than a parameter or a constant is an opaque function of the parameters of its class; assertions and refusals in the bodies are left out (the theorems
speak about constructions that succeed, or about the binding of arguments); what `reinit_pars`, `set_arch` and `load` write is left out (none of it has the name of a parameter, except for what
`load` restores when `load_path` is given, see `SaveLoad`).
-/

namespace PyF.Forward

open PyF

/-- An expression in the body of a constructor: a parameter, a constant, or a function of the parameters. -/
inductive Expr where
  | par (p : String)
  | lit (s : String)
  | fn (s : String)
  deriving DecidableEq

/-- A constructor: parameters (the first `required` without default), whether it has `**kwargs`, attributes set before the call of the base constructor, positional and keyword
arguments of that call and whether `**kwargs` is passed on, attributes set after it. -/
structure Cls where
  name : String
  params : List String
  required : Nat
  star : Bool
  pre : List (String × Expr)
  pos : List Expr
  kw : List (String × Expr)
  starBase : Bool
  post : List (String × Expr)
  deriving DecidableEq

/-- A call: positional arguments and keyword arguments. -/
structure Call (V : Type) where
  pos : List V
  kw : List (String × V)

/-- What the code leaves to the values: defaults of the parameters of each class, constants, functions. -/
structure World (V : Type) where
  dflt : String → String → V
  lit : String → V
  fn : String → (String → V) → V

variable {V : Type}

/-- Keyword arguments under a name (Python call binding). -/
def kwOf (l : List (String × V)) (p : String) : Option V := l.lookup p

/-- What the call gives for the name `p`: the positional argument at its place in the signature, otherwise the keyword (Python call binding). -/
def given (c : Cls) (a : Call V) (p : String) : Option V :=
  (a.pos[c.params.idxOf p]?).or (kwOf a.kw p)

/-- The call is accepted: not too many positional arguments, no argument given twice, no unknown keyword without `**kwargs`, no required argument missing (Python call binding, otherwise
`TypeError`). -/
def Accepts (c : Cls) (a : Call V) : Prop :=
  a.pos.length ≤ c.params.length ∧ (a.kw.map Prod.fst).Nodup ∧ (∀ k ∈ a.kw.map Prod.fst, k ∉ c.params.take a.pos.length) ∧
    (c.star = false → ∀ k ∈ a.kw.map Prod.fst, k ∈ c.params) ∧ ∀ p ∈ c.params.take c.required, (given c a p).isSome

instance (c : Cls) (a : Call V) : Decidable (Accepts c a) := by unfold Accepts; infer_instance

/-- The parameters in the body of the constructor. -/
def env (W : World V) (c : Cls) (a : Call V) (p : String) : V := (given c a p).getD (W.dflt c.name p)

/-- `**kwargs` in the body of the constructor. -/
def extra (c : Cls) (a : Call V) : List (String × V) := a.kw.filter fun x => x.1 ∉ c.params

/-- Value of an expression. -/
def eval (W : World V) (e : String → V) : Expr → V
  | .par p => e p
  | .lit s => W.lit s
  | .fn s => W.fn s e

/-- The call of the base constructor. -/
def superCall (W : World V) (c : Cls) (a : Call V) : Call V :=
  { pos := c.pos.map (eval W (env W c a)),
    kw := c.kw.map (fun x => (x.1, eval W (env W c a) x.2)) ++ if c.starBase then extra c a else [] }

/-- The attributes set, in order of execution, by the constructors of a class and its bases (the class first). -/
def run (W : World V) : List Cls → Call V → Except PyErr (List (String × V))
  | [], _ => .ok []
  | c :: cs, a =>
    if Accepts c a then
      match run W cs (superCall W c a) with
      | .error e => .error e
      | .ok w => .ok (c.pre.map (fun x => (x.1, eval W (env W c a) x.2)) ++ w ++ c.post.map (fun x => (x.1, eval W (env W c a) x.2)))
    else .error .typeError

/-- The attribute of the object: what was assigned last, `none` if the constructors assign nothing (a class attribute is then used, if there is one). -/
def attr (w : List (String × V)) (x : String) : Option V := w.reverse.lookup x

/-- `ScenarioGenerator.__init__`, pyforecaster/forecaster.py L57-80. The attributes hold the arguments as received, before `None` and whole-number conversions. -/
def scenarioGenerator : Cls where
  name := "ScenarioGenerator"
  params := ["q_vect", "nodes_at_step", "val_ratio", "logger", "n_scen_fit", "additional_node", "formatter", "conditional_to_hour", "max_scengen_rows",
    "scengen_random_state"]
  required := 0
  star := true
  pre := []
  pos := []
  kw := []
  starBase := false
  post := [("max_scengen_rows", .par "max_scengen_rows"), ("scengen_random_state", .par "scengen_random_state"), ("q_vect", .par "q_vect"),
    ("scengen.nodes_at_step", .par "nodes_at_step"), ("scengen.additional_node", .par "additional_node"), ("val_ratio", .par "val_ratio"), ("err_distr", .lit "{}"),
    ("logger", .par "logger"), ("n_scen_fit", .par "n_scen_fit"), ("additional_node", .par "additional_node"), ("formatter", .par "formatter"),
    ("conditional_to_hour", .par "conditional_to_hour"), ("target_cols", .lit "None")]

/-- `LinearForecaster.__init__`, pyforecaster/forecaster.py L326-331. -/
def linearForecaster : Cls where
  name := "LinearForecaster"
  params := ["q_vect", "val_ratio", "nodes_at_step", "kind", "max_scengen_rows", "scengen_random_state"]
  required := 0
  star := true
  pre := []
  pos := [.par "q_vect"]
  kw := [("nodes_at_step", .par "nodes_at_step"), ("val_ratio", .par "val_ratio"), ("max_scengen_rows", .par "max_scengen_rows"),
    ("scengen_random_state", .par "scengen_random_state")]
  starBase := true
  post := [("m", .lit "None"), ("kind", .par "kind")]

/-- `LGBForecaster.__init__`, pyforecaster/forecaster.py L359-389. -/
def lgbForecaster : Cls where
  name := "LGBForecaster"
  params := ["device_type", "max_depth", "n_estimators", "num_leaves", "learning_rate", "min_child_samples", "n_jobs", "n_jobs_predict", "objective",
    "verbose", "metric", "colsample_bytree", "colsample_bynode", "q_vect", "val_ratio", "nodes_at_step", "max_scengen_rows", "scengen_random_state"]
  required := 0
  star := true
  pre := []
  pos := [.par "q_vect"]
  kw := [("val_ratio", .par "val_ratio"), ("nodes_at_step", .par "nodes_at_step"), ("max_scengen_rows", .par "max_scengen_rows"),
    ("scengen_random_state", .par "scengen_random_state")]
  starBase := true
  post := [("m", .lit "[]"), ("device_type", .par "device_type"), ("objective", .par "objective"), ("max_depth", .par "max_depth"),
    ("n_estimators", .par "n_estimators"), ("num_leaves", .par "num_leaves"), ("learning_rate", .par "learning_rate"), ("verbose", .par "verbose"),
    ("metric", .par "metric"), ("min_child_samples", .par "min_child_samples"), ("colsample_bytree", .par "colsample_bytree"),
    ("colsample_bynode", .par "colsample_bynode"), ("n_jobs", .par "n_jobs"), ("n_jobs_predict", .par "n_jobs_predict"),
    ("lgb_pars", .fn "{'device_type': self.device_type, 'objective': self.objec...")]

/-- `Persistent.__init__`, pyforecaster/forecasting_models/benchmarks.py L7-12. -/
def persistent : Cls where
  name := "Persistent"
  params := ["target_col", "n_sa", "q_vect", "val_ratio", "nodes_at_step", "conditional_to_hour"]
  required := 1
  star := true
  pre := []
  pos := [.par "q_vect"]
  kw := [("nodes_at_step", .par "nodes_at_step"), ("val_ratio", .par "val_ratio"), ("conditional_to_hour", .par "conditional_to_hour")]
  starBase := true
  post := [("n_sa", .par "n_sa"), ("target_col", .par "target_col")]

/-- `SeasonalPersistent.__init__`, pyforecaster/forecasting_models/benchmarks.py L36-43. -/
def seasonalPersistent : Cls where
  name := "SeasonalPersistent"
  params := ["target_col", "seasonality", "n_sa", "q_vect", "val_ratio", "nodes_at_step", "conditional_to_hour"]
  required := 1
  star := true
  pre := []
  pos := [.par "q_vect"]
  kw := [("nodes_at_step", .par "nodes_at_step"), ("val_ratio", .par "val_ratio"), ("conditional_to_hour", .par "conditional_to_hour")]
  starBase := true
  post := [("seasonality", .par "seasonality"), ("n_sa", .par "n_sa"), ("target_col", .par "target_col"), ("state", .lit "None")]

/-- `DiscreteDistr.__init__`, pyforecaster/forecasting_models/benchmarks.py L69-77. -/
def discreteDistr : Cls where
  name := "DiscreteDistr"
  params := ["period", "q_vect", "val_ratio", "nodes_at_step", "conditional_to_hour"]
  required := 0
  star := true
  pre := []
  pos := [.par "q_vect"]
  kw := [("nodes_at_step", .par "nodes_at_step"), ("val_ratio", .par "val_ratio"), ("conditional_to_hour", .par "conditional_to_hour")]
  starBase := true
  post := [("n_sa", .lit "None"), ("period", .par "period"), ("target_names", .lit "None"), ("y_distributions", .lit "None"), ("support", .lit "None")]

/-- `StatefulForecaster.__init__`, pyforecaster/forecasting_models/fast_adaptive_models.py L58-98. -/
def statefulForecaster : Cls where
  name := "StatefulForecaster"
  params := ["target_name", "targets_names", "n_sa", "m", "val_ratio", "optimize_hyperpars", "optimization_budget", "verbose", "nodes_at_step", "q_vect"]
  required := 0
  star := true
  pre := [("targets_names", .fn "[target_name] if targets_names is None else targets_names"),
    ("init_pars", .fn "{'target_name': target_name, 'targets_names': self.target..."), ("optimize_hyperpars", .par "optimize_hyperpars"),
    ("optimization_budget", .par "optimization_budget"), ("target_name", .par "target_name"), ("m", .par "m"), ("n_sa", .par "n_sa"),
    ("val_ratio", .par "val_ratio"), ("verbose", .par "verbose"), ("states", .lit "{'w': None}"), ("hyperpar_lims", .lit "{}")]
  pos := [.par "q_vect"]
  kw := [("nodes_at_step", .par "nodes_at_step"), ("val_ratio", .par "val_ratio")]
  starBase := true
  post := []

/-- `Fourier_es.__init__`, pyforecaster/forecasting_models/fast_adaptive_models.py L157-186. -/
def fourieres : Cls where
  name := "Fourier_es"
  params := ["target_name", "targets_names", "n_sa", "m", "val_ratio", "optimize_hyperpars", "optimization_budget", "verbose", "nodes_at_step", "q_vect",
    "alpha", "omega", "n_harmonics", "periodicity"]
  required := 0
  star := true
  pre := []
  pos := []
  kw := [("target_name", .par "target_name"), ("targets_names", .par "targets_names"), ("n_sa", .par "n_sa"), ("m", .par "m"),
    ("val_ratio", .par "val_ratio"), ("optimize_hyperpars", .par "optimize_hyperpars"), ("optimization_budget", .par "optimization_budget"),
    ("verbose", .par "verbose"), ("nodes_at_step", .par "nodes_at_step"), ("q_vect", .par "q_vect")]
  starBase := true
  post := [("periodicity", .fn "periodicity if periodicity is not None else n_sa"), ("alpha", .par "alpha"), ("omega", .par "omega"),
    ("n_harmonics", .par "n_harmonics"), ("n_harmonics_int", .fn "int(np.minimum(n_harmonics, m // 2))"), ("P_future", .lit "None"),
    ("hyperpar_lims", .fn "{'alpha': [0, 1], 'omega': [0, 1], 'n_harmonics': [1, m /..."),
    ("states", .fn "{'x': None, 'w': np.zeros(m), 'eps': 0, 'last_1sa_preds': 0}")]

/-- `FK.__init__`, pyforecaster/forecasting_models/fast_adaptive_models.py L306-346. -/
def fk : Cls where
  name := "FK"
  params := ["target_name", "targets_names", "n_sa", "alpha", "m", "omega", "n_harmonics", "val_ratio", "nodes_at_step", "q_vect", "periodicity",
    "optimize_hyperpars", "optimization_budget", "r", "q", "verbose"]
  required := 0
  star := true
  pre := []
  pos := []
  kw := [("target_name", .par "target_name"), ("targets_names", .par "targets_names"), ("n_sa", .par "n_sa"), ("m", .par "m"),
    ("val_ratio", .par "val_ratio"), ("optimize_hyperpars", .par "optimize_hyperpars"), ("optimization_budget", .par "optimization_budget"),
    ("verbose", .par "verbose"), ("nodes_at_step", .par "nodes_at_step"), ("q_vect", .par "q_vect")]
  starBase := true
  post := [("targets_names", .fn "[target_name] if targets_names is None else targets_names"),
    ("periodicity", .fn "periodicity if periodicity is not None else n_sa"), ("alpha", .par "alpha"), ("omega", .par "omega"),
    ("n_harmonics", .par "n_harmonics"), ("r", .par "r"), ("q", .par "q"), ("F", .lit "None"), ("H", .lit "None"), ("P_future", .lit "None"),
    ("coeffs_t_history", .lit "[]"), ("hyperpar_lims", .fn "{'alpha': [0, 1], 'omega': [0, 1], 'n_harmonics': [1, sel..."),
    ("states", .fn "{'x': None, 'P': None, 'R': None, 'Q': None, 'w': np.zero...")]

/-- `FK_multi.__init__`, pyforecaster/forecasting_models/fast_adaptive_models.py L427-467. -/
def fKmulti : Cls where
  name := "FK_multi"
  params := ["target_name", "targets_names", "n_sa", "n_predictors", "alphas", "m", "omegas", "ns_harmonics", "val_ratio", "nodes_at_step", "q_vect",
    "periodicity", "base_predictor", "optimize_hyperpars", "optimize_submodels_hyperpars", "optimization_budget", "r", "q", "verbose", "submodels_pars"]
  required := 0
  star := true
  pre := [("base_predictor", .par "base_predictor")]
  pos := []
  kw := [("target_name", .par "target_name"), ("targets_names", .par "targets_names"), ("n_sa", .par "n_sa"), ("m", .par "m"),
    ("val_ratio", .par "val_ratio"), ("optimize_hyperpars", .par "optimize_hyperpars"), ("optimization_budget", .par "optimization_budget"),
    ("verbose", .par "verbose"), ("nodes_at_step", .par "nodes_at_step"), ("q_vect", .par "q_vect")]
  starBase := true
  post := [("submodels_init_pars", .fn "deepcopy(self.init_pars)"), ("submodels_pars", .par "submodels_pars"),
    ("optimize_submodels_hyperpars", .par "optimize_submodels_hyperpars"), ("periodicity", .fn "periodicity if periodicity is not None else n_sa"),
    ("n_predictors", .fn "n_predictors after its conversion"), ("r", .par "r"), ("q", .par "q"), ("coeffs_t_history", .lit "[]"), ("H", .lit "None"),
    ("F", .lit "None"), ("models", .lit "None"), ("states", .lit "{'x': None, 'P': None, 'R': None, 'Q': None}")]

/-- `LGBMHybrid.__init__`, pyforecaster/forecasting_models/gradientboosters.py L13-59. -/
def lgbmHybrid : Cls where
  name := "LGBMHybrid"
  params := ["device_type", "max_depth", "n_estimators", "num_leaves", "learning_rate", "min_child_samples", "n_jobs", "objective", "tol_period",
    "colsample_bytree", "colsample_bynode", "verbose", "metric", "n_single", "red_frac_multistep", "q_vect", "val_ratio", "nodes_at_step",
    "formatter", "metadata_features", "keep_last_n_lags", "keep_last_seconds", "parallel"]
  required := 0
  star := true
  pre := []
  pos := [.par "q_vect"]
  kw := [("val_ratio", .par "val_ratio"), ("nodes_at_step", .par "nodes_at_step")]
  starBase := true
  post := [("parallel", .par "parallel"), ("device_type", .par "device_type"), ("n_single", .par "n_single"),
    ("red_frac_multistep", .par "red_frac_multistep"), ("tol_period", .par "tol_period"), ("max_depth", .par "max_depth"),
    ("objective", .par "objective"), ("n_estimators", .par "n_estimators"), ("num_leaves", .par "num_leaves"),
    ("learning_rate", .par "learning_rate"), ("verbose", .par "verbose"), ("metric", .par "metric"), ("min_child_samples", .par "min_child_samples"),
    ("n_jobs", .par "n_jobs"), ("colsample_bytree", .par "colsample_bytree"), ("colsample_bynode", .par "colsample_bynode"), ("models", .lit "[]"),
    ("multi_step_model", .lit "None"), ("n_multistep", .lit "None"), ("formatter", .par "formatter"), ("logger", .lit "get_logger()"),
    ("metadata_features", .fn "metadata_features if metadata_features is not None else []"), ("keep_last_n_lags", .par "keep_last_n_lags"),
    ("keep_last_seconds", .par "keep_last_seconds")]

/-- `HoltWinters.__init__`, pyforecaster/forecasting_models/holtwinters.py L135-180. -/
def holtWinters : Cls where
  name := "HoltWinters"
  params := ["periods", "target_name", "targets_names", "q_vect", "val_ratio", "nodes_at_step", "optimization_budget", "n_sa", "constraints",
    "optimize_hyperpars", "alpha", "beta", "gamma_1", "gamma_2", "verbose"]
  required := 2
  star := true
  pre := [("init_pars", .fn "{'periods': periods, 'target_name': target_name, 'q_vect'...")]
  pos := [.par "q_vect"]
  kw := [("nodes_at_step", .par "nodes_at_step"), ("val_ratio", .par "val_ratio")]
  starBase := true
  post := [("targets_names", .fn "[target_name] if targets_names is None else targets_names"), ("periods", .par "periods"),
    ("optimization_budget", .par "optimization_budget"), ("n_sa", .par "n_sa"), ("optimize_hyperpars", .par "optimize_hyperpars"),
    ("verbose", .par "verbose"), ("alpha", .par "alpha"), ("beta", .par "beta"), ("gamma_1", .par "gamma_1"), ("gamma_2", .par "gamma_2"),
    ("a", .lit "None"), ("b", .lit "None"), ("s1", .lit "None"), ("s2", .lit "None"), ("exogenous_names", .lit "None"), ("m", .lit "None"),
    ("target_name", .par "target_name"), ("coeffs_output", .lit "None"), ("coeffs_input", .lit "None"), ("y_hat_tr", .lit "None"),
    ("y_tr", .lit "None"), ("q_hat_err", .lit "None"), ("err_distr", .lit "None"), ("constraints", .par "constraints")]

/-- `HoltWintersMulti.__init__`, pyforecaster/forecasting_models/holtwinters.py L386-416. -/
def holtWintersMulti : Cls where
  name := "HoltWintersMulti"
  params := ["periods", "target_name", "targets_names", "q_vect", "val_ratio", "nodes_at_step", "optimization_budget", "optimize_hyperpars",
    "optimize_submodels_hyperpars", "n_sa", "constraints", "models_periods", "verbose", "alphas", "gammas_1", "gammas_2"]
  required := 2
  star := true
  pre := []
  pos := [.par "q_vect"]
  kw := [("nodes_at_step", .par "nodes_at_step"), ("val_ratio", .par "val_ratio")]
  starBase := true
  post := [("init_pars", .fn "{'periods': periods, 'target_name': target_name, 'q_vect'..."),
    ("targets_names", .fn "[target_name] if targets_names is None else targets_names"), ("periods", .par "periods"),
    ("optimization_budget", .par "optimization_budget"), ("optimize_submodels_hyperpars", .par "optimize_submodels_hyperpars"), ("n_sa", .par "n_sa"),
    ("models_periods", .fn "models_periods if models_periods is not None else np.aran..."),
    ("alphas", .fn "np.ones(len(self.models_periods)) * 0.01 if alphas is Non..."),
    ("gammas_1", .fn "np.ones(len(self.models_periods)) * 0.01 if gammas_1 is N..."),
    ("gammas_2", .fn "np.ones(len(self.models_periods)) * 0.01 if gammas_2 is N..."), ("optimize_hyperpars", .par "optimize_hyperpars"),
    ("target_name", .par "target_name"), ("models", .lit "None")]

/-- `QRF.__init__`, pyforecaster/forecasting_models/randomforests.py L12-91. -/
def qrf : Cls where
  name := "QRF"
  params := ["n_estimators", "q_vect", "val_ratio", "nodes_at_step", "metadata_features", "n_single", "red_frac_multistep", "tol_period", "keep_last_n_lags",
    "keep_last_seconds", "criterion", "max_depth", "min_samples_split", "min_samples_leaf", "max_samples_leaf", "min_weight_fraction_leaf",
    "max_features", "max_leaf_nodes", "min_impurity_decrease", "bootstrap", "oob_score", "n_jobs", "random_state", "verbose", "warm_start",
    "ccp_alpha", "max_samples", "parallel", "max_parallel_workers", "max_scengen_rows", "scengen_random_state"]
  required := 0
  star := true
  pre := []
  pos := [.par "q_vect"]
  kw := [("val_ratio", .par "val_ratio"), ("nodes_at_step", .par "nodes_at_step"), ("max_scengen_rows", .par "max_scengen_rows"),
    ("scengen_random_state", .par "scengen_random_state")]
  starBase := true
  post := [("n_estimators", .par "n_estimators"), ("max_depth", .par "max_depth"), ("verbose", .par "verbose"), ("n_jobs", .par "n_jobs"),
    ("n_single", .par "n_single"), ("red_frac_multistep", .par "red_frac_multistep"), ("tol_period", .par "tol_period"), ("models", .lit "[]"),
    ("multi_step_model", .lit "None"), ("n_multistep", .lit "None"), ("logger", .lit "get_logger()"),
    ("metadata_features", .fn "metadata_features if metadata_features is not None else []"), ("keep_last_n_lags", .par "keep_last_n_lags"),
    ("keep_last_seconds", .par "keep_last_seconds"), ("bootstrap", .par "bootstrap"), ("oob_score", .par "oob_score"), ("n_jobs", .par "n_jobs"),
    ("random_state", .par "random_state"), ("verbose", .par "verbose"), ("warm_start", .par "warm_start"), ("max_samples", .par "max_samples"),
    ("min_samples_split", .par "min_samples_split"), ("min_samples_leaf", .par "min_samples_leaf"), ("max_samples_leaf", .par "max_samples_leaf"),
    ("min_weight_fraction_leaf", .par "min_weight_fraction_leaf"), ("max_features", .par "max_features"), ("max_leaf_nodes", .par "max_leaf_nodes"),
    ("min_impurity_decrease", .par "min_impurity_decrease"), ("criterion", .par "criterion"), ("ccp_alpha", .par "ccp_alpha"),
    ("parallel", .par "parallel"), ("max_parallel_workers", .par "max_parallel_workers"),
    ("qrf_pars", .fn "{'n_estimators': n_estimators, 'bootstrap': bootstrap, 'o...")]

/-- `StatsModelsWrapper.__init__`, pyforecaster/forecasting_models/statsmodels_wrapper.py L22-29. -/
def statsModelsWrapper : Cls where
  name := "StatsModelsWrapper"
  params := ["model_class", "model_pars", "target_name", "q_vect", "nodes_at_step", "val_ratio", "n_sa"]
  required := 4
  star := true
  pre := [("model_class", .par "model_class"), ("model_pars", .par "model_pars"), ("model", .lit "None"), ("target_name", .par "target_name"),
    ("n_sa", .par "n_sa")]
  pos := [.par "q_vect"]
  kw := [("nodes_at_step", .par "nodes_at_step"), ("val_ratio", .par "val_ratio")]
  starBase := true
  post := []

/-- `ExponentialSmoothing.__init__`, pyforecaster/forecasting_models/statsmodels_wrapper.py L52-55. -/
def exponentialSmoothing : Cls where
  name := "ExponentialSmoothing"
  params := ["target_name", "q_vect", "nodes_at_step", "val_ratio", "n_sa", "trend", "seasonal"]
  required := 2
  star := true
  pre := []
  pos := [.lit "model_class", .fn "{'trend': trend, 'seasonal': seasonal}", .par "target_name", .par "q_vect"]
  kw := [("nodes_at_step", .par "nodes_at_step"), ("val_ratio", .par "val_ratio"), ("n_sa", .par "n_sa")]
  starBase := true
  post := []

/-- `AdditiveRFFRegression.__init__`, pyforecaster/forecasting_models/random_fourier_features.py L365-371. -/
def additiveRFFRegression : Cls where
  name := "AdditiveRFFRegression"
  params := ["n_models", "dim_kernel", "std_kernel", "W", "b", "q_vect", "nodes_at_step", "val_ratio", "logger", "n_scen_fit", "additional_node", "base_model"]
  required := 1
  star := true
  pre := [("n_models", .par "n_models"), ("models", .fn "[RandomFFRegressor('rff', base_model, dim_kernel, std_ker...")]
  pos := [.par "q_vect"]
  kw := [("nodes_at_step", .par "nodes_at_step"), ("val_ratio", .par "val_ratio"), ("logger", .par "logger"), ("n_scen_fit", .par "n_scen_fit"),
    ("additional_node", .par "additional_node")]
  starBase := true
  post := [("scaler", .lit "None")]

/-- `RFFRegression.__init__`, pyforecaster/forecasting_models/random_fourier_features.py L334-339. Only the call of `ScenarioGenerator.__init__`; the other one writes the attributes of the kernel map. -/
def rffRegression : Cls where
  name := "RFFRegression"
  params := ["dim_kernel", "std_kernel", "W", "b", "q_vect", "nodes_at_step", "val_ratio", "logger", "n_scen_fit", "additional_node", "base_model"]
  required := 0
  star := true
  pre := []
  pos := [.par "q_vect"]
  kw := [("nodes_at_step", .par "nodes_at_step"), ("val_ratio", .par "val_ratio"), ("logger", .par "logger"), ("n_scen_fit", .par "n_scen_fit"),
    ("additional_node", .par "additional_node")]
  starBase := true
  post := [("scaler", .lit "None")]

/-- `LSTM_Forecaster.__init__`, pyforecaster/forecasting_models/neural_models/LSTM_bidir.py L13-21. -/
def lstmForecaster : Cls where
  name := "LSTM_Forecaster"
  params := ["target_name", "lstm_history", "pred_horizon", "q_vect", "nodes_at_step", "val_ratio", "logger", "n_scen_fit", "additional_node", "formatter",
    "conditional_to_hour"]
  required := 2
  star := true
  pre := []
  pos := [.par "q_vect"]
  kw := [("val_ratio", .par "val_ratio"), ("nodes_at_step", .par "nodes_at_step")]
  starBase := true
  post := [("target_name", .par "target_name"), ("lstm_history", .par "lstm_history"), ("pred_horizon", .par "pred_horizon"), ("model", .lit "None"),
    ("target_scaler", .lit "StandardScaler()"), ("exog_scaler", .lit "StandardScaler()")]

/-- `NN.__init__`, pyforecaster/forecasting_models/neural_models/base_nn.py L222-261. -/
def nn : Cls where
  name := "NN"
  params := ["learning_rate", "batch_size", "load_path", "n_hidden_x", "n_out", "n_layers", "pars", "q_vect", "val_ratio", "nodes_at_step", "n_epochs",
    "savepath_tr_plots", "stats_step", "rel_tol", "unnormalized_inputs", "normalize_target", "stopping_rounds", "subtract_mean_when_normalizing",
    "causal_df", "probabilistic", "probabilistic_loss_kind"]
  required := 0
  star := true
  pre := []
  pos := [.par "q_vect"]
  kw := [("val_ratio", .par "val_ratio"), ("nodes_at_step", .par "nodes_at_step")]
  starBase := true
  post := [("learning_rate", .par "learning_rate"), ("batch_size", .par "batch_size"), ("load_path", .par "load_path"), ("n_hidden_x", .par "n_hidden_x"),
    ("n_out", .par "n_out"), ("n_layers", .par "n_layers"), ("pars", .par "pars"), ("n_epochs", .par "n_epochs"),
    ("savepath_tr_plots", .par "savepath_tr_plots"), ("stats_step", .par "stats_step"), ("rel_tol", .par "rel_tol"),
    ("unnormalized_inputs", .par "unnormalized_inputs"), ("normalize_target", .par "normalize_target"), ("stopping_rounds", .par "stopping_rounds"),
    ("subtract_mean_when_normalizing", .par "subtract_mean_when_normalizing"), ("causal_df", .par "causal_df"),
    ("probabilistic", .par "probabilistic"), ("probabilistic_loss_kind", .par "probabilistic_loss_kind"), ("val_ratio", .par "val_ratio"),
    ("nodes_at_step", .par "nodes_at_step"), ("optimizer", .lit "None"), ("model", .lit "None"), ("loss_fn", .lit "None"),
    ("train_step", .lit "None"), ("predict_batch", .lit "None")]

/-- `FFNN.__init__`, pyforecaster/forecasting_models/neural_models/base_nn.py L529-536. -/
def ffnn : Cls where
  name := "FFNN"
  params := ["n_out", "q_vect", "n_epochs", "val_ratio", "nodes_at_step", "learning_rate", "scengen_dict", "batch_size", "split_heads", "selector",
    "skip_connection"]
  required := 0
  star := true
  pre := [("split_heads", .par "split_heads"), ("selector", .par "selector"), ("skip_connection", .par "skip_connection")]
  pos := []
  kw := [("n_out", .par "n_out"), ("q_vect", .par "q_vect"), ("n_epochs", .par "n_epochs"), ("val_ratio", .par "val_ratio"),
    ("nodes_at_step", .par "nodes_at_step"), ("learning_rate", .par "learning_rate"), ("nn_module", .lit "FeedForwardModule"),
    ("scengen_dict", .par "scengen_dict"), ("batch_size", .par "batch_size")]
  starBase := true
  post := []

/-- `LSTMNN.__init__`, pyforecaster/forecasting_models/neural_models/base_nn.py L548-551. -/
def lstmnn : Cls where
  name := "LSTMNN"
  params := ["n_out", "q_vect", "n_epochs", "val_ratio", "nodes_at_step", "learning_rate", "scengen_dict", "batch_size"]
  required := 0
  star := true
  pre := []
  pos := []
  kw := [("n_out", .par "n_out"), ("q_vect", .par "q_vect"), ("n_epochs", .par "n_epochs"), ("val_ratio", .par "val_ratio"),
    ("nodes_at_step", .par "nodes_at_step"), ("learning_rate", .par "learning_rate"), ("nn_module", .lit "FeedForwardModule"),
    ("scengen_dict", .par "scengen_dict"), ("batch_size", .par "batch_size")]
  starBase := true
  post := []

/-- `CausalInvertibleNN.__init__`, pyforecaster/forecasting_models/neural_models/INN.py L121-141. -/
def causalInvertibleNN : Cls where
  name := "CausalInvertibleNN"
  params := ["learning_rate", "batch_size", "load_path", "n_in", "n_out", "n_layers", "pars", "q_vect", "val_ratio", "nodes_at_step", "n_epochs",
    "savepath_tr_plots", "stats_step", "rel_tol", "unnormalized_inputs", "normalize_target", "stopping_rounds", "subtract_mean_when_normalizing",
    "causal_df", "probabilistic", "probabilistic_loss_kind", "end_to_end", "n_prediction_layers", "n_hidden_y", "names_exogenous", "scaling_factor"]
  required := 0
  star := true
  pre := [("names_exogenous", .par "names_exogenous"), ("end_to_end", .par "end_to_end"), ("n_prediction_layers", .par "n_prediction_layers"),
    ("num_embedding_layers", .par "n_hidden_y"), ("n_exogenous", .fn "len(names_exogenous) if names_exogenous is not None else 0"),
    ("scaling_factor", .par "scaling_factor")]
  pos := [.par "learning_rate", .par "batch_size", .par "load_path", .par "n_in", .par "n_out", .par "n_layers", .par "pars", .par "q_vect",
    .par "val_ratio", .par "nodes_at_step", .par "n_epochs", .par "savepath_tr_plots", .par "stats_step", .par "rel_tol", .par "unnormalized_inputs",
    .par "normalize_target", .par "stopping_rounds", .par "subtract_mean_when_normalizing", .par "causal_df", .par "probabilistic",
    .par "probabilistic_loss_kind"]
  kw := []
  starBase := true
  post := []

/-- `PICNN.__init__`, pyforecaster/forecasting_models/neural_models/ICNN.py L288-320. -/
def picnn : Cls where
  name := "PICNN"
  params := ["learning_rate", "batch_size", "load_path", "n_hidden_x", "n_out", "n_latent", "n_layers", "pars", "q_vect", "val_ratio", "nodes_at_step",
    "n_epochs", "savepath_tr_plots", "stats_step", "rel_tol", "unnormalized_inputs", "normalize_target", "stopping_rounds",
    "subtract_mean_when_normalizing", "causal_df", "probabilistic", "probabilistic_loss_kind", "distribution", "inverter_learning_rate",
    "optimization_vars", "target_columns", "init_type", "augment_ctrl_inputs", "layer_normalization", "z_min", "z_max", "inverter_class"]
  required := 0
  star := true
  pre := [("inverter_learning_rate", .par "inverter_learning_rate"), ("optimization_vars", .par "optimization_vars"),
    ("target_columns", .par "target_columns"), ("init_type", .par "init_type"), ("augment_ctrl_inputs", .par "augment_ctrl_inputs"),
    ("layer_normalization", .par "layer_normalization"), ("probabilistic_loss_kind", .par "probabilistic_loss_kind"),
    ("distribution", .par "distribution"), ("z_min", .par "z_min"), ("z_max", .par "z_max"), ("n_latent", .par "n_latent"),
    ("inverter_class", .fn "inverter_class after its conversion"), ("n_hidden_y", .fn "2 * len(self.optimization_vars) if augment_ctrl_inputs el..."),
    ("inverter_optimizer", .fn "inverter_class(learning_rate=self.inverter_learning_rate)")]
  pos := [.par "learning_rate", .par "batch_size", .par "load_path", .par "n_hidden_x", .par "n_out", .par "n_layers", .par "pars", .par "q_vect",
    .par "val_ratio", .par "nodes_at_step", .par "n_epochs", .par "savepath_tr_plots", .par "stats_step", .par "rel_tol", .par "unnormalized_inputs",
    .par "normalize_target", .par "stopping_rounds", .par "subtract_mean_when_normalizing", .par "causal_df", .par "probabilistic",
    .par "probabilistic_loss_kind"]
  kw := []
  starBase := true
  post := []

/-- `PIQCNN.__init__`, pyforecaster/forecasting_models/neural_models/ICNN.py L441-456. -/
def piqcnn : Cls where
  name := "PIQCNN"
  params := ["learning_rate", "batch_size", "load_path", "n_hidden_x", "n_out", "n_latent", "n_layers", "pars", "q_vect", "val_ratio", "nodes_at_step",
    "n_epochs", "savepath_tr_plots", "stats_step", "rel_tol", "unnormalized_inputs", "normalize_target", "stopping_rounds",
    "subtract_mean_when_normalizing", "causal_df", "probabilistic", "probabilistic_loss_kind", "distribution", "inverter_learning_rate",
    "optimization_vars", "target_columns", "init_type", "augment_ctrl_inputs", "layer_normalization", "z_min", "z_max"]
  required := 0
  star := true
  pre := []
  pos := [.par "learning_rate", .par "batch_size", .par "load_path", .par "n_hidden_x", .par "n_out", .par "n_latent", .par "n_layers", .par "pars",
    .par "q_vect", .par "val_ratio", .par "nodes_at_step", .par "n_epochs", .par "savepath_tr_plots", .par "stats_step", .par "rel_tol",
    .par "unnormalized_inputs", .par "normalize_target", .par "stopping_rounds", .par "subtract_mean_when_normalizing", .par "causal_df",
    .par "probabilistic", .par "probabilistic_loss_kind", .par "distribution", .par "inverter_learning_rate", .par "optimization_vars",
    .par "target_columns", .par "init_type", .par "augment_ctrl_inputs", .par "layer_normalization", .par "z_min", .par "z_max"]
  kw := []
  starBase := true
  post := []

/-- `PIQCNNSigmoid.__init__`, pyforecaster/forecasting_models/neural_models/ICNN.py L478-492. -/
def piqcnnSigmoid : Cls where
  name := "PIQCNNSigmoid"
  params := ["learning_rate", "batch_size", "load_path", "n_hidden_x", "n_out", "n_latent", "n_layers", "pars", "q_vect", "val_ratio", "nodes_at_step",
    "n_epochs", "savepath_tr_plots", "stats_step", "rel_tol", "unnormalized_inputs", "normalize_target", "stopping_rounds",
    "subtract_mean_when_normalizing", "causal_df", "probabilistic", "probabilistic_loss_kind", "distribution", "inverter_learning_rate",
    "optimization_vars", "target_columns", "init_type", "augment_ctrl_inputs", "layer_normalization", "z_min", "z_max"]
  required := 0
  star := true
  pre := []
  pos := [.par "learning_rate", .par "batch_size", .par "load_path", .par "n_hidden_x", .par "n_out", .par "n_latent", .par "n_layers", .par "pars",
    .par "q_vect", .par "val_ratio", .par "nodes_at_step", .par "n_epochs", .par "savepath_tr_plots", .par "stats_step", .par "rel_tol",
    .par "unnormalized_inputs", .par "normalize_target", .par "stopping_rounds", .par "subtract_mean_when_normalizing", .par "causal_df",
    .par "probabilistic", .par "probabilistic_loss_kind", .par "distribution", .par "inverter_learning_rate", .par "optimization_vars",
    .par "target_columns", .par "init_type", .par "augment_ctrl_inputs", .par "layer_normalization", .par "z_min", .par "z_max"]
  kw := []
  starBase := true
  post := []

/-- `RecStablePICNN.__init__`, pyforecaster/forecasting_models/neural_models/ICNN.py L512-525. -/
def recStablePICNN : Cls where
  name := "RecStablePICNN"
  params := ["learning_rate", "batch_size", "load_path", "n_hidden_x", "n_out", "n_latent", "n_layers", "pars", "q_vect", "val_ratio", "nodes_at_step",
    "n_epochs", "savepath_tr_plots", "stats_step", "rel_tol", "unnormalized_inputs", "normalize_target", "stopping_rounds",
    "subtract_mean_when_normalizing", "causal_df", "probabilistic", "probabilistic_loss_kind", "distribution", "inverter_learning_rate",
    "optimization_vars", "target_columns", "init_type", "augment_ctrl_inputs", "layer_normalization", "z_min", "z_max"]
  required := 0
  star := true
  pre := []
  pos := [.par "learning_rate", .par "batch_size", .par "load_path", .par "n_hidden_x", .par "n_out", .par "n_latent", .par "n_layers", .par "pars",
    .par "q_vect", .par "val_ratio", .par "nodes_at_step", .par "n_epochs", .par "savepath_tr_plots", .par "stats_step", .par "rel_tol",
    .par "unnormalized_inputs", .par "normalize_target", .par "stopping_rounds", .par "subtract_mean_when_normalizing", .par "causal_df",
    .par "probabilistic", .par "probabilistic_loss_kind", .par "distribution", .par "inverter_learning_rate", .par "optimization_vars",
    .par "target_columns", .par "init_type", .par "augment_ctrl_inputs", .par "layer_normalization", .par "z_min", .par "z_max"]
  kw := []
  starBase := true
  post := []

/-- `StructuredPICNN.__init__`, pyforecaster/forecasting_models/neural_models/ICNN.py L547-563. -/
def structuredPICNN : Cls where
  name := "StructuredPICNN"
  params := ["learning_rate", "batch_size", "load_path", "n_hidden_x", "n_out", "n_latent", "n_layers", "pars", "q_vect", "val_ratio", "nodes_at_step",
    "n_epochs", "savepath_tr_plots", "stats_step", "rel_tol", "unnormalized_inputs", "normalize_target", "stopping_rounds",
    "subtract_mean_when_normalizing", "causal_df", "probabilistic", "probabilistic_loss_kind", "distribution", "inverter_learning_rate",
    "optimization_vars", "target_columns", "init_type", "augment_ctrl_inputs", "layer_normalization", "objective_fun", "z_min", "z_max"]
  required := 0
  star := true
  pre := [("objective_fun", .par "objective_fun"), ("objective", .fn "vmap(objective_fun, in_axes=(0, 0))")]
  pos := [.par "learning_rate", .par "batch_size", .par "load_path", .par "n_hidden_x", .par "n_out", .par "n_latent", .par "n_layers", .par "pars",
    .par "q_vect", .par "val_ratio", .par "nodes_at_step", .par "n_epochs", .par "savepath_tr_plots", .par "stats_step", .par "rel_tol",
    .par "unnormalized_inputs", .par "normalize_target", .par "stopping_rounds", .par "subtract_mean_when_normalizing", .par "causal_df",
    .par "probabilistic", .par "probabilistic_loss_kind", .par "distribution", .par "inverter_learning_rate", .par "optimization_vars",
    .par "target_columns", .par "init_type", .par "augment_ctrl_inputs", .par "layer_normalization", .par "z_min", .par "z_max"]
  kw := []
  starBase := true
  post := []

/-- `LatentStructuredPICNN.__init__`, pyforecaster/forecasting_models/neural_models/ICNN.py L657-678. -/
def latentStructuredPICNN : Cls where
  name := "LatentStructuredPICNN"
  params := ["learning_rate", "batch_size", "load_path", "n_hidden_x", "n_out", "n_latent", "n_layers", "pars", "q_vect", "val_ratio", "nodes_at_step",
    "n_epochs", "savepath_tr_plots", "stats_step", "rel_tol", "unnormalized_inputs", "normalize_target", "stopping_rounds",
    "subtract_mean_when_normalizing", "causal_df", "probabilistic", "probabilistic_loss_kind", "distribution", "inverter_learning_rate",
    "optimization_vars", "target_columns", "init_type", "augment_ctrl_inputs", "layer_normalization", "objective_fun", "z_min", "z_max",
    "n_encoder_layers", "n_embeddings", "n_decoder_layers"]
  required := 0
  star := true
  pre := [("n_embeddings", .par "n_embeddings"), ("n_encoder_layers", .par "n_encoder_layers"), ("n_decoder_layers", .par "n_decoder_layers")]
  pos := [.par "learning_rate", .par "batch_size", .par "load_path", .par "n_hidden_x", .par "n_out", .par "n_latent", .par "n_layers", .par "pars",
    .par "q_vect", .par "val_ratio", .par "nodes_at_step", .par "n_epochs", .par "savepath_tr_plots", .par "stats_step", .par "rel_tol",
    .par "unnormalized_inputs", .par "normalize_target", .par "stopping_rounds", .par "subtract_mean_when_normalizing", .par "causal_df",
    .par "probabilistic", .par "probabilistic_loss_kind", .par "distribution", .par "inverter_learning_rate", .par "optimization_vars",
    .par "target_columns", .par "init_type", .par "augment_ctrl_inputs", .par "layer_normalization", .par "z_min", .par "z_max"]
  kw := []
  starBase := true
  post := []

/-- `GaussianCopula.__init__`, pyforecaster/copula.py L11-15. The attributes hold the arguments as received, before `None` and whole-number conversions. -/
def gaussianCopula : Cls where
  name := "GaussianCopula"
  params := ["cov_est_method", "logger"]
  required := 0
  star := false
  pre := []
  pos := []
  kw := []
  starBase := false
  post := [("pars", .lit "None"), ("cov_est_method", .par "cov_est_method"), ("logger", .par "logger"), ("dim", .lit "None")]

/-- `HourlyGaussianCopula.__init__`, pyforecaster/copula.py L32-33. -/
def hourlyGaussianCopula : Cls where
  name := "HourlyGaussianCopula"
  params := ["cov_est_method", "logger"]
  required := 0
  star := false
  pre := []
  pos := [.par "cov_est_method", .par "logger"]
  kw := []
  starBase := false
  post := []

/-- `ConditionalGaussianCopula.__init__`, pyforecaster/copula.py L105-107. -/
def conditionalGaussianCopula : Cls where
  name := "ConditionalGaussianCopula"
  params := ["cov_est_method", "conditional_on", "logger"]
  required := 0
  star := false
  pre := [("conditional_on", .par "conditional_on")]
  pos := [.par "cov_est_method", .par "logger"]
  kw := []
  starBase := false
  post := []

/-- `ScenarioTree.__init__`, pyforecaster/tree_builders.py L16-23. The attributes hold the arguments as received, before `None` and whole-number conversions. -/
def scenarioTree : Cls where
  name := "ScenarioTree"
  params := ["tree", "nodes_at_step", "savepath", "init", "base_tree", "logger"]
  required := 0
  star := false
  pre := []
  pos := []
  kw := []
  starBase := false
  post := [("nodes_at_step", .par "nodes_at_step"), ("tree", .par "tree"), ("cm", .lit "plt.get_cmap('viridis', 10)"), ("savepath", .par "savepath"),
    ("init", .par "init"), ("base_tree", .par "base_tree"), ("logger", .par "logger")]

/-- `NeuralGas.__init__`, pyforecaster/tree_builders.py L137-142. -/
def neuralGas : Cls where
  name := "NeuralGas"
  params := ["tree", "nodes_at_step", "savepath", "init", "base_tree"]
  required := 0
  star := false
  pre := [("pars", .lit "{'lambda_0': 5, 'lambda_f': 0.05, 'e0': 5, 'ef': 0.05}")]
  pos := [.par "tree", .par "nodes_at_step", .par "savepath", .par "init", .par "base_tree"]
  kw := []
  starBase := false
  post := []

/-- `DiffTree.__init__`, pyforecaster/tree_builders.py L207-210. -/
def diffTree : Cls where
  name := "DiffTree"
  params := ["tree", "nodes_at_step", "savepath", "init", "base_tree", "learning_rate"]
  required := 0
  star := false
  pre := []
  pos := [.par "tree", .par "nodes_at_step", .par "savepath", .par "init", .par "base_tree"]
  kw := []
  starBase := false
  post := [("learning_rate", .par "learning_rate")]

/-- `ScenredTree.__init__`, pyforecaster/tree_builders.py L251-252. -/
def scenredTree : Cls where
  name := "ScenredTree"
  params := ["tree", "nodes_at_step", "savepath"]
  required := 0
  star := false
  pre := []
  pos := [.par "tree", .par "nodes_at_step", .par "savepath", .lit "'quantiles'", .lit "'scenred'"]
  kw := []
  starBase := false
  post := []

/-- `QuantileTree.__init__`, pyforecaster/tree_builders.py L262-263. -/
def quantileTree : Cls where
  name := "QuantileTree"
  params := ["tree", "nodes_at_step", "savepath"]
  required := 0
  star := false
  pre := []
  pos := [.par "tree", .par "nodes_at_step", .par "savepath", .lit "'quantiles'", .lit "'quantiles'"]
  kw := []
  starBase := false
  post := []

/-- The classes with their bases, nearest first (method resolution order; `RFFRegression` for its call of `ScenarioGenerator.__init__`, pyforecaster/forecasting_models/random_fourier_features.py L337). -/
def chains : List (List Cls) :=
  [[linearForecaster, scenarioGenerator],
   [lgbForecaster, scenarioGenerator],
   [persistent, scenarioGenerator],
   [seasonalPersistent, scenarioGenerator],
   [discreteDistr, scenarioGenerator],
   [statefulForecaster, scenarioGenerator],
   [fourieres, statefulForecaster, scenarioGenerator],
   [fk, statefulForecaster, scenarioGenerator],
   [fKmulti, statefulForecaster, scenarioGenerator],
   [lgbmHybrid, scenarioGenerator],
   [holtWinters, scenarioGenerator],
   [holtWintersMulti, scenarioGenerator],
   [qrf, scenarioGenerator],
   [statsModelsWrapper, scenarioGenerator],
   [exponentialSmoothing, statsModelsWrapper, scenarioGenerator],
   [additiveRFFRegression, scenarioGenerator],
   [rffRegression, scenarioGenerator],
   [lstmForecaster, scenarioGenerator],
   [nn, scenarioGenerator],
   [ffnn, nn, scenarioGenerator],
   [lstmnn, nn, scenarioGenerator],
   [causalInvertibleNN, nn, scenarioGenerator],
   [picnn, nn, scenarioGenerator],
   [piqcnn, picnn, nn, scenarioGenerator],
   [piqcnnSigmoid, picnn, nn, scenarioGenerator],
   [recStablePICNN, picnn, nn, scenarioGenerator],
   [structuredPICNN, picnn, nn, scenarioGenerator],
   [latentStructuredPICNN, picnn, nn, scenarioGenerator],
   [hourlyGaussianCopula, gaussianCopula],
   [conditionalGaussianCopula, gaussianCopula],
   [neuralGas, scenarioTree],
   [diffTree, scenarioTree],
   [scenredTree, scenarioTree],
   [quantileTree, scenarioTree]]

/-- Names under which `HoltWintersMulti.reinit_pars` passes arguments to each of its experts, pyforecaster/forecasting_models/holtwinters.py L418-426. -/
def expertNames : List String :=
  ["periods", "q_vect", "n_sa", "target_name", "optimization_budget", "targets_names", "verbose", "optimize_hyperpars", "alpha", "gamma_1", "gamma_2"]

/-- The expert built with values `v`, pyforecaster/forecasting_models/holtwinters.py L421-424. -/
def expert (W : World V) (v : String → V) : Except PyErr (List (String × V)) :=
  run W [holtWinters, scenarioGenerator] { pos := [], kw := expertNames.map fun k => (k, v k) }

end PyF.Forward
