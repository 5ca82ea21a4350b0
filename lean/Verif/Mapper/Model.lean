import Verif.Common

/-!
Model of `mapper` (`pyforecaster/big_data_utils.py` L13-24). The mapped function has a first parameter and further named parameters
without defaults; its body is a total function of the values of the parameters in the order of their declaration. The pool of processes
is the sequential map: `starmap_async(...).get()` gives the results in the order of the arguments.
-/

namespace PyF.Mapper
open PyF

variable {P V R : Type}

/-- A Python function `def f(p, n1, n2, ...)`. -/
structure Fun (P V R : Type) where
  names : List String
  body : P → List V → R

/-- The call `f(p, *args)`. -/
def Fun.call (f : Fun P V R) (p : P) (args : List V) : Except PyErr R :=
  if args.length = f.names.length then .ok (f.body p args) else .error .typeError

/-- The loop of `starmap`, L20: the first exception is raised by `get`. -/
def starmap (f : Fun P V R) : List (P × List V) → Except PyErr (List R)
  | [] => .ok []
  | (p, args) :: l =>
    match f.call p args with
    | .error e => .error e
    | .ok r =>
      match starmap f l with
      | .error e => .error e
      | .ok rs => .ok (r :: rs)

/-- `mapper(f, pars, *argv, sharedmem=…, **kwarg)`, L13-24. Inside the function `sharedmem` is the flag and not the module:
`sharedmem.copy` of a `bool` is an `AttributeError`, L16. A pool of no processes is a `ValueError`, L19. -/
def mapper (cpus : Nat) (f : Fun P V R) (pars : List P) (argv : List V) (sharedmem : Bool) (kwarg : List (String × V)) :
    Except PyErr (List R) :=
  if sharedmem = true ∧ argv ≠ [] then .error .attributeError
  else if cpus - 1 < 1 then .error .valueError
  else starmap f (pars.map (fun p => (p, argv ++ kwarg.map Prod.snd)))

end PyF.Mapper
