import Verif.Forward.Model

/-!
What a user expects of an argument, in terms of the call and of the object.
-/

namespace PyF.Forward

/-- What the caller gives for `p` when constructing the class at the head of the chain. -/
def asked {V : Type} (chain : List Cls) (a : Call V) (p : String) : Option V :=
  match chain with
  | [] => none
  | c :: _ => given c a p

/-- Whatever the values, a successful construction leaves in the attribute `x` what the caller gave for `p`, or the default that class `k` has for `p`. -/
def Holds (chain : List Cls) (x p k : String) : Prop :=
  ∀ (V : Type) (W : World V) (a : Call V) (w : List (String × V)), run W chain a = .ok w → attr w x = some ((asked chain a p).getD (W.dflt k p))

/-- Whatever the caller gives, a successful construction leaves in the attribute `x` the default that class `k` has for `p`. -/
def AlwaysDefault (chain : List Cls) (x p k : String) : Prop :=
  ∀ (V : Type) (W : World V) (a : Call V) (w : List (String × V)), run W chain a = .ok w → attr w x = some (W.dflt k p)

/-- Whatever the caller gives, a successful construction leaves the constant `s` in the attribute `x`. -/
def AlwaysConst (chain : List Cls) (x s : String) : Prop :=
  ∀ (V : Type) (W : World V) (a : Call V) (w : List (String × V)), run W chain a = .ok w → attr w x = some (W.lit s)

/-- Whatever the caller gives, the constructors do not assign the attribute `x`. -/
def NeverSet (chain : List Cls) (x : String) : Prop :=
  ∀ (V : Type) (W : World V) (a : Call V) (w : List (String × V)), run W chain a = .ok w → attr w x = none

/-- The nearest class of the chain that has a parameter `p`. -/
def owner (chain : List Cls) (p : String) : String := ((chain.find? fun c => p ∈ c.params).map Cls.name).getD ""

/-- The attribute a parameter is kept in: its own name, except that `nodes_at_step` of a forecaster is kept by its scenario generator. -/
def field (chain : List Cls) (p : String) : String :=
  if p = "nodes_at_step" ∧ (chain.map Cls.name).getLast? = some "ScenarioGenerator" then "scengen.nodes_at_step" else p

/-- Parameters that are not kept under their own name, or only after a conversion, by class. -/
def exceptions : String → List String
  | "StatefulForecaster" => ["targets_names"]
  | "Fourier_es" => ["targets_names", "periodicity"]
  | "FK" => ["targets_names", "periodicity"]
  | "FK_multi" => ["targets_names", "periodicity", "n_predictors", "alphas", "omegas", "ns_harmonics"]
  | "HoltWinters" => ["targets_names"]
  | "HoltWintersMulti" => ["targets_names", "constraints", "models_periods", "verbose", "alphas", "gammas_1", "gammas_2"]
  | "LGBMHybrid" => ["metadata_features", "logger"]
  | "QRF" => ["metadata_features", "logger"]
  | "ExponentialSmoothing" => ["trend", "seasonal", "model_class", "model_pars"]
  | "AdditiveRFFRegression" => ["dim_kernel", "std_kernel", "W", "b", "base_model"]
  | "RFFRegression" => ["dim_kernel", "std_kernel", "W", "b", "base_model"]
  | "LSTM_Forecaster" => ["logger", "n_scen_fit", "additional_node", "formatter", "conditional_to_hour"]
  | "FFNN" => ["scengen_dict"]
  | "LSTMNN" => ["scengen_dict"]
  | "CausalInvertibleNN" => ["n_in", "n_hidden_y", "n_hidden_x"]
  | "PICNN" => ["inverter_class"]
  | "PIQCNN" => ["inverter_class"]
  | "PIQCNNSigmoid" => ["inverter_class"]
  | "RecStablePICNN" => ["inverter_class"]
  | "StructuredPICNN" => ["inverter_class"]
  | "LatentStructuredPICNN" => ["objective_fun", "inverter_class"]
  | "NeuralGas" => ["logger"]
  | "DiffTree" => ["logger"]
  | "ScenredTree" => ["init", "base_tree", "logger"]
  | "QuantileTree" => ["init", "base_tree", "logger"]
  | _ => []

/-- Keywords that a class refuses although it accepts arbitrary keywords, by class. -/
def refused : String → List String
  | "ExponentialSmoothing" => ["model_class", "model_pars"]
  | "FFNN" => ["nn_module"]
  | "LSTMNN" => ["nn_module"]
  | "CausalInvertibleNN" => ["n_hidden_x"]
  | _ => []

end PyF.Forward
