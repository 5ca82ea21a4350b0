import Verif.Common

/-!
Model of `__getstate__` and `__setstate__` of `Fourier_es`, `FK` and `FK_multi` (`pyforecaster/forecasting_models/fast_adaptive_models.py` L256-260,
L415-419, L583-587, identical), of their constructors as far as attributes are concerned (L83-96 and L162-191, L309-352, L445-471), of the use of `__setstate__` at the end of a fit (L246,
L402, L574), and of Python's copying protocol (`pickle.loads(pickle.dumps(o))`, `copy.copy`, `copy.deepcopy`, also used by process pools):
the state is what `__getstate__` returns; a new object is made with `cls.__new__`, hence without attributes; the state is given to its
`__setstate__`. `cp` is what the protocol does to the values (nothing for `copy.copy`).
-/

namespace PyF.Pickle
open PyF

variable {V : Type}

/-- A Python dictionary with string keys. -/
abbrev Dict (V : Type) := String → Option V

/-- `d.update(e)`. -/
def Dict.update (d e : Dict V) : Dict V := fun k => match e k with | some v => some v | none => d k

/-- An object of one of the three classes: the dictionary in its attribute `states` if it has that attribute, and its other attributes. -/
structure Obj (V : Type) where
  states : Option (Dict V)
  attrs : Dict V

/-- `cls.__new__(cls)`. -/
def blank : Obj V := { states := none, attrs := fun _ => none }

/-- `__getstate__`, L256-257. -/
def getState (o : Obj V) : Except PyErr (Dict V) :=
  match o.states with
  | none => .error .attributeError
  | some s => .ok s

/-- `__setstate__`, L259-260. -/
def setState (o : Obj V) (s : Dict V) : Except PyErr (Obj V) :=
  match o.states with
  | none => .error .attributeError
  | some s0 => .ok { o with states := some (s0.update s) }

/-- `pickle.dumps` as far as the object is concerned. -/
def dumps (cp : V → V) (o : Obj V) : Except PyErr (Dict V) :=
  match getState o with
  | .error e => .error e
  | .ok s => .ok (fun k => (s k).map cp)

/-- `pickle.loads`: a new object, then `__setstate__`. -/
def loads (s : Dict V) : Except PyErr (Obj V) := setState blank s

/-- A copy of the object. -/
def copy (cp : V → V) (o : Obj V) : Except PyErr (Obj V) :=
  match dumps cp o with
  | .error e => .error e
  | .ok s => loads s

/-- The same protocol for a class without the two methods (`HoltWinters`, `LinearForecaster` …): the state is the dictionary of attributes, which the new
object gets as its own. -/
def copyPlain (cp : V → V) (o : Dict V) : Dict V := Dict.update (fun _ => none) (fun k => (o k).map cp)

/-- A constructed object: `states` holds the names of the class (L186, L351, L469), the other attributes those the constructor sets. -/
def construct (names : List String) (init : String → V) (attrs : Dict V) : Obj V :=
  { states := some (fun k => if k ∈ names then some (init k) else none), attrs := attrs }

/-- The end of a fit, L246, L402, L574: the new values of the states, then the attributes a fit sets (`target_cols`, `err_distr`). -/
def finishFit (o : Obj V) (new : Dict V) (fitted : Dict V) : Except PyErr (Obj V) :=
  match setState o new with
  | .error e => .error e
  | .ok o' => .ok { o' with attrs := o'.attrs.update fitted }

/-- Names of the states of `Fourier_es`, L186 and L246. -/
def fourierNames : List String := ["x", "w", "eps", "last_1sa_preds"]
/-- Names of the states of `FK`, L351 and L402. -/
def fkNames : List String := ["x", "P", "R", "Q", "w", "eps", "last_1sa_preds"]
/-- Names of the states of `FK_multi`, L469 and L574. -/
def multiNames : List String := ["x", "P", "R", "Q"]

/-- What happens to an object between two uses: a fit, or states given to it by the caller. -/
inductive Event (V : Type)
  | fit (new fitted : Dict V)
  | set (s : Dict V)

/-- The object after the events. -/
def run : Obj V → List (Event V) → Except PyErr (Obj V)
  | o, [] => .ok o
  | o, .fit n f :: es => match finishFit o n f with | .error e => .error e | .ok o' => run o' es
  | o, .set s :: es => match setState o s with | .error e => .error e | .ok o' => run o' es

end PyF.Pickle
