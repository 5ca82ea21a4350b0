import Verif.Common
import Mathlib.Data.List.Dedup

/-!
Saving and loading networks: pyforecaster/forecasting_models/neural_models/base_nn.py, L229-319, and the constructors in ICNN.py.

Simplifications: an object is its instance dictionary and the dictionaries of its classes in resolution order; properties (`online_tree_reduction`) are left out;
values are opaque, pickling a value and reading it back is a partial function; the file system is left out: the file is what `load` reads.
-/

namespace PyF.SaveLoad

open PyF

/-- Attribute names. -/
abbrev Name := List Char

/-- What Python tells about values: `hidden` is "callable, classmethod or staticmethod", `copy` is pickling and unpickling, `nil` is None. -/
structure World (V : Type) where
  hidden : V → Bool
  copy : V → Option V
  nil : V

/-- An object: class dictionaries in resolution order, instance dictionary. -/
structure Obj (V : Type) where
  mro : List (List (Name × V))
  inst : List (Name × V)

variable {V : Type}

/-- `getattr(self, k)`. -/
def getattr (o : Obj V) (k : Name) : Except PyErr V :=
  match o.inst.lookup k with
  | some v => .ok v
  | none =>
    match o.mro.flatten.lookup k with
    | some v => .ok v
    | none => .error .attributeError

/-- `self.__setattr__(k, v)`. -/
def setattr (o : Obj V) (k : Name) (v : V) : Obj V := { o with inst := (k, v) :: o.inst.filter (fun e => e.1 ≠ k) }

/-- `set_attr`, L294-295. -/
def setAttrs (o : Obj V) (d : List (Name × V)) : Obj V := d.foldl (fun o e => setattr o e.1 e.2) o

/-- `key.startswith('__')`. -/
def dunder (k : Name) : Bool := ['_', '_'].isPrefixOf k

/-- `get_class_properties_names`, L246-257. -/
def classNames (w : World V) (o : Obj V) : List Name :=
  ((o.mro.flatten.filter (fun e => !w.hidden e.2 && !dunder e.1)).map Prod.fst).dedup

/-- `_runtime_serialization_excludes`, L262-272. -/
def excludes : List Name :=
  ["optimizer".toList, "inverter_optimizer".toList, "model".toList, "loss_fn".toList, "train_step".toList, "predict_batch".toList,
   "predict_batch_training".toList]

/-- One step of `get_serializable_properties`, L274-284: the entry written for a name, if any. -/
def entry (w : World V) (o : Obj V) (k : Name) : Option (Name × V) :=
  if k ∈ excludes then none
  else
    match getattr o k with
    | .error _ => none
    | .ok v =>
      match w.copy v with
      | none => none
      | some c => some (k, c)

/-- `save`, L286-289: the dictionary read back from the file. -/
def save (w : World V) (o : Obj V) : List (Name × V) := (classNames w o).filterMap (entry w o)

/-- The attributes reset at the end of the constructor, L235-239. -/
def runtimeNames : List Name := ["optimizer".toList, "model".toList, "loss_fn".toList, "train_step".toList, "predict_batch".toList]

/-- `NN.__init__`, L229-240, on an object whose base constructors have run: arguments, then the file if `load_path` is given, then `set_arch`. -/
def nnInit (w : World V) (o : Obj V) (args : List (Name × V)) (file : Option (List (Name × V))) (arch : Obj V → List (Name × V)) : Obj V :=
  let o1 := setAttrs o args
  let o2 := match file with | none => o1 | some d => setAttrs o1 d
  let o3 := setAttrs o2 (runtimeNames.map (fun k => (k, w.nil)))
  setAttrs o3 (arch o3)

/-- `set_params`, L291-293: only names already in the instance dictionary are set; the architecture is rebuilt. -/
def setParams (o : Obj V) (kw : List (Name × V)) (arch : Obj V → List (Name × V)) : Obj V :=
  let o1 := kw.foldl (fun o' e => if e.1 ∈ o.inst.map Prod.fst then setattr o' e.1 e.2 else o') o
  setAttrs o1 (arch o1)

/-- Names used below. -/
def sRate : Name := "inverter_learning_rate".toList
def sInvOpt : Name := "inverter_optimizer".toList

/-- `PICNN.__init__`, ICNN.py L297-320: own arguments, the optimiser of `optimize` built from the learning rate at hand, then `NN.__init__`. -/
def picnnInit (w : World V) (o : Obj V) (own args : List (Name × V)) (mk : V → V) (file : Option (List (Name × V))) (arch : Obj V → List (Name × V)) :
    Except PyErr (Obj V) :=
  let o1 := setAttrs o own
  match getattr o1 sRate with
  | .error e => .error e
  | .ok r => .ok (nnInit w (setattr o1 sInvOpt (mk r)) args file arch)

/-- The residual look-up of `predict_quantiles` when not probabilistic, base_nn.py L502-505: one entry of `err_distr` for every hour in the input. -/
def addResiduals {R : Type} (errDistr : List (ℕ × R)) : List ℕ → Except PyErr (List R)
  | [] => .ok []
  | h :: hs =>
    match errDistr.lookup h with
    | none => .error .keyError
    | some r =>
      match addResiduals errDistr hs with
      | .error e => .error e
      | .ok rs => .ok (r :: rs)

/-! ### The class-level attributes of the networks -/

/-- base_nn.py L193-220. -/
def nnNames : List Name :=
  ["input_scaler".toList, "target_scaler".toList, "learning_rate".toList, "batch_size".toList, "load_path".toList, "n_out".toList, "n_layers".toList,
   "n_hidden_x".toList, "pars".toList, "n_epochs".toList, "savepath_tr_plots".toList, "stats_step".toList, "rel_tol".toList, "unnormalized_inputs".toList,
   "to_be_normalized".toList, "target_columns".toList, "iterate".toList, "normalize_target".toList, "stopping_rounds".toList,
   "subtract_mean_when_normalizing".toList, "causal_df".toList, "reproject".toList, "rec_stable".toList, "monotone".toList, "probabilistic".toList,
   "probabilistic_loss_kind".toList, "val_ratio".toList, "nodes_at_step".toList]

/-- base_nn.py L525-528. -/
def ffnnNames : List Name := ["split_heads".toList, "selector".toList, "skip_connection".toList]

/-- ICNN.py L273-287. -/
def picnnNames : List Name :=
  ["reproject".toList, "rec_stable".toList, "inverter_learning_rate".toList, "n_hidden_y".toList, "optimization_vars".toList, "init_type".toList,
   "augment_ctrl_inputs".toList, "layer_normalization".toList, "probabilistic_loss_kind".toList, "distribution".toList, "z_min".toList, "z_max".toList,
   "n_latent".toList, "inverter_class".toList]

/-- ICNN.py L650-656. -/
def latentNames : List Name :=
  ["reproject".toList, "rec_stable".toList, "objective_fun".toList, "encoder_neurons".toList, "decoder_neurons".toList, "n_embeddings".toList]

/-- INN.py L113-120. -/
def innNames : List Name :=
  ["distribution".toList, "end_to_end".toList, "n_prediction_layers".toList, "n_hidden_y".toList, "names_exogenous".toList, "n_exogenous".toList,
   "scaling_factor".toList]

/-- The networks. -/
inductive Kind
  | nn | ffnn | lstmnn | picnn | piqcnn | piqcnnSigmoid | recStable | latent | inn
  deriving DecidableEq

/-- Names with a class-level value, own and inherited. -/
def declared : Kind → List Name
  | .nn => nnNames
  | .ffnn => ffnnNames ++ nnNames
  | .lstmnn => nnNames
  | .picnn => picnnNames ++ nnNames
  | .piqcnn => picnnNames ++ nnNames
  | .piqcnnSigmoid => picnnNames ++ nnNames
  | .recStable => picnnNames ++ nnNames
  | .latent => latentNames ++ picnnNames ++ nnNames
  | .inn => innNames ++ nnNames

/-- What `set_arch` reads: base_nn.py L327-336, L538-546, L554-561; ICNN.py L323-341, L459-472, L495-508, L527-538, L679-691; INN.py L143-168. -/
def archReads : Kind → List Name
  | .nn => ["learning_rate".toList, "n_layers".toList, "n_hidden_x".toList, "n_out".toList, "probabilistic".toList]
  | .ffnn =>
    ["learning_rate".toList, "n_layers".toList, "n_hidden_x".toList, "n_out".toList, "split_heads".toList, "selector".toList, "skip_connection".toList,
     "probabilistic".toList]
  | .lstmnn => ["learning_rate".toList, "n_layers".toList, "n_hidden_x".toList, "n_out".toList, "probabilistic".toList]
  | .picnn =>
    ["z_max".toList, "z_min".toList, "learning_rate".toList, "n_layers".toList, "n_hidden_x".toList, "n_hidden_y".toList, "n_out".toList, "n_latent".toList,
     "init_type".toList, "augment_ctrl_inputs".toList, "probabilistic".toList, "causal_df".toList, "probabilistic_loss_kind".toList, "distribution".toList]
  | .piqcnn =>
    ["z_max".toList, "z_min".toList, "learning_rate".toList, "n_layers".toList, "n_hidden_x".toList, "n_hidden_y".toList, "n_out".toList, "n_latent".toList,
     "init_type".toList, "augment_ctrl_inputs".toList, "probabilistic".toList, "probabilistic_loss_kind".toList, "distribution".toList]
  | .piqcnnSigmoid =>
    ["z_max".toList, "z_min".toList, "learning_rate".toList, "n_layers".toList, "n_hidden_x".toList, "n_hidden_y".toList, "n_out".toList, "n_latent".toList,
     "init_type".toList, "augment_ctrl_inputs".toList, "probabilistic".toList, "probabilistic_loss_kind".toList, "distribution".toList]
  | .recStable =>
    ["z_max".toList, "z_min".toList, "learning_rate".toList, "n_layers".toList, "n_hidden_x".toList, "n_hidden_y".toList, "n_out".toList, "n_latent".toList,
     "init_type".toList, "probabilistic".toList, "probabilistic_loss_kind".toList, "distribution".toList]
  | .latent =>
    ["z_max".toList, "z_min".toList, "learning_rate".toList, "n_layers".toList, "n_encoder_layers".toList, "n_decoder_layers".toList, "n_hidden_x".toList,
     "n_hidden_y".toList, "n_out".toList, "n_latent".toList, "init_type".toList, "augment_ctrl_inputs".toList, "probabilistic".toList, "n_embeddings".toList,
     "optimization_vars".toList, "probabilistic_loss_kind".toList, "distribution".toList]
  | .inn =>
    ["learning_rate".toList, "n_layers".toList, "n_prediction_layers".toList, "n_hidden_y".toList, "n_hidden_x".toList, "n_exogenous".toList, "n_out".toList,
     "scaling_factor".toList, "end_to_end".toList]

/-- What `set_arch` sets. -/
def archSets : Kind → List Name
  | .latent => "predict_batch_training".toList :: runtimeNames
  | _ => runtimeNames

/-- What `predict` reads: base_nn.py L466-485, L508-522; ICNN.py L352-367; INN.py L170-224. -/
def predictReads : Kind → List Name
  | .nn | .ffnn | .lstmnn =>
    ["input_scaler".toList, "unnormalized_inputs".toList, "pars".toList, "predict_batch".toList, "normalize_target".toList, "probabilistic".toList,
     "target_scaler".toList, "target_columns".toList]
  | .picnn | .piqcnn | .piqcnnSigmoid | .recStable | .latent =>
    ["input_scaler".toList, "unnormalized_inputs".toList, "optimization_vars".toList, "pars".toList, "predict_batch".toList, "normalize_target".toList,
     "probabilistic".toList, "target_scaler".toList, "target_columns".toList]
  | .inn =>
    ["n_exogenous".toList, "names_exogenous".toList, "input_scaler".toList, "unnormalized_inputs".toList, "end_to_end".toList, "pars".toList, "model".toList,
     "predict_batch".toList, "normalize_target".toList, "target_scaler".toList, "target_columns".toList]

end PyF.SaveLoad
