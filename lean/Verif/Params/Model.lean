import Verif.Common

/-!
Model of the hyper-parameter protocol of the forecasters.

* `ScenarioGenerator.set_params/get_params`, `pyforecaster/forecaster.py` L90-94
* constructors that store a parameter as an attribute of the same name, route it elsewhere, or freeze it in a
  dictionary (`LGBForecaster.__init__` forecaster.py L359-389, `QRF.__init__` randomforests.py L72-91)
* `sklearn.base.clone`, used by `sklearn.model_selection.cross_validate` in trainer.py L45
* `optuna_objective`, `pyforecaster/trainer.py` L75-106

`N` is the type of parameter names, `V` of values.
-/

namespace PyF.Params
open PyF

variable {N V : Type} [DecidableEq N]

/-- `obj.__dict__` restricted to the attributes of interest. -/
abbrev Attrs (N V : Type) := N → Option V

def Attrs.set (a : Attrs N V) (k : N) (v : V) : Attrs N V := fun n => if n = k then some v else a n

/-- `set_params(**kw)`, forecaster.py L90-91: in order, assign the names that are attributes, skip the others. Returns `None`,
not `self`. -/
def setParams (a : Attrs N V) : List (N × V) → Attrs N V
  | [] => a
  | (k, v) :: kw => setParams (if (a k).isSome then a.set k v else a) kw

/-- `get_params()`, forecaster.py L93-94: the signature names that are attributes, with their values, in signature order. -/
def getParams (sig : List N) (a : Attrs N V) : List (N × V) :=
  sig.filterMap (fun k => (a k).map (fun v => (k, v)))

/-- A forecaster class, seen through its constructor: the names in `inspect.signature` (including the name of
the `**kwargs` catch-all, which is never an attribute), all the names it accepts, the defaults, the names stored as
attributes of the same name, and the names copied into the training dictionary. -/
structure Cls (N V : Type) where
  sig : List N
  accepted : List N
  default : N → V
  stored : N → Bool
  /-- Does `fit` read the frozen dictionary (`LGBForecaster`, `QRF`) or the attributes (`LGBMHybrid`)? -/
  frozenDict : Bool

/-- An object: the values its constructor received (they configure the scenario generator and the error
distribution), its attributes, and the training dictionary built by the constructor. -/
structure Obj (N V : Type) where
  received : N → V
  attrs : Attrs N V
  frozen : N → V

/-- `klass(**kw)`. -/
def construct (c : Cls N V) (kw : List (N × V)) : Except PyErr (Obj N V) :=
  if kw.all (fun p => decide (p.1 ∈ c.accepted)) then
    let r : N → V := fun n => (kw.lookup n).getD (c.default n)
    .ok ⟨r, fun n => if c.stored n then some (r n) else none, r⟩
  else .error .typeError

/-- `obj.set_params(**kw)`: only attributes change. (Assigning the dictionary attribute itself, `lgb_pars=..`, is
not represented.) -/
def Obj.setParams (ob : Obj N V) (kw : List (N × V)) : Obj N V := { ob with attrs := Params.setParams ob.attrs kw }

/-- The value a training run uses for parameter `n`: `train(self.lgb_pars, ...)` (forecaster.py L395) and
`RandomForestQuantileRegressor(**self.qrf_pars)` (randomforests.py L98) against
`LGBMRegressor(**self.get_lgb_pars())` (gradientboosters.py L79, L90). -/
def trainValue (c : Cls N V) (ob : Obj N V) (n : N) : Option V :=
  if c.frozenDict then some (ob.frozen n) else ob.attrs n

/-- `sklearn.base.clone(obj)`: `klass(**obj.get_params())`. (The deep copies of the values are the identity here.) -/
def clone (c : Cls N V) (ob : Obj N V) : Except PyErr (Obj N V) := construct c (getParams c.sig ob.attrs)

/-- `optuna_objective`, trainer.py L94-98: refuse names that are neither in the signature nor in `get_params`,
then `set_params`. -/
def applyTrial (c : Cls N V) (ob : Obj N V) (kw : List (N × V)) : Except PyErr (Obj N V) :=
  if kw.all (fun p => decide (p.1 ∈ c.sig ++ (getParams c.sig ob.attrs).map Prod.fst)) then
    .ok (ob.setParams kw)
  else .error .valueError

end PyF.Params
