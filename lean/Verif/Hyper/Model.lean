import Verif.Params.Model
import Mathlib.Data.Rat.Defs
import Mathlib.Data.List.Sort
import Mathlib.Data.List.Dedup

/-!
Model of the hyper-parameter search, `pyforecaster/trainer.py` L75-189, and of the default search spaces, `pyforecaster/dictionaries.py` L5-35.

The object and its parameters are those of `Verif.Params`. optuna is an oracle: `sampler` gives the parameters of the next trial from the trials before it, composed with `param_space_fun`. One
fold's score is an oracle of the object that is fitted; `none` is NaN. The state left in the object by fitting it (`random_fold`, see C108) is not represented.
-/

namespace PyF.Hyper
open PyF PyF.Params

variable {N V : Type} [DecidableEq N]

/-- `HYPERPAR_MAP`, dictionaries.py L5-21 and L31-35: the parameter names of the default search space of a class, by class name. -/
def hyperparMap (cls : String) : Option (List String) :=
  if cls = "LinearForecaster" then some ["kind"]
  else if cls = "LGBForecaster" then some ["n_estimators", "learning_rate"]
  else if cls = "LGBMHybrid" then some ["n_estimators", "learning_rate"]
  else if cls = "PICNN" then some ["n_layers", "n_hidden_x", "learning_rate"]
  else if cls = "StructuredPICNN" then some ["n_layers", "n_hidden_x", "learning_rate"]
  else none

/-- `default_param_space_fun`, trainer.py L12-15: the names given to the model (the names given to optuna have no prefix). -/
def defaultNames : List String := ["model__n_estimators", "model__learning_rate"]

/-- trainer.py L129-132: the names searched when no `param_space_fun` is given. -/
def spaceNames (cls : String) : List String :=
  match hyperparMap cls with
  | some l => l
  | none => defaultNames

/-- A finished trial: its parameters, the fold scores stored by `trial.set_user_attr('cv_test_scores', ..)` (full runs only) and its value, `none` if NaN: optuna then marks the trial failed. -/
structure Trial (N V : Type) where
  params : List (N × V)
  attr : Option (List (Option ℚ))
  value : Option ℚ

/-- `np.mean` of the fold scores: NaN if one is. -/
def mean (l : List (Option ℚ)) : Option ℚ :=
  match l.mapM id with
  | none => none
  | some q => if q.length = 0 then none else some (q.sum / q.length)

/-- `optuna_objective`, trainer.py L93-106, with `cross_validate` L42-70. A full run fits and scores a clone for each fold; `random_fold` fits and scores the object itself on the fold drawn. Returns
the object as the trial leaves it. -/
def objective (c : Cls N V) (full : Bool) (folds : ℕ) (score : Obj N V → ℕ → Option ℚ) (draw : ℕ) (ob : Obj N V) (kw : List (N × V)) : Except PyErr (Obj N V × Trial N V) :=
  match applyTrial c ob kw with
  | .error e => .error e
  | .ok ob₁ =>
    if full then
      match clone c ob₁ with
      | .error e => .error e
      | .ok ob₂ => .ok (ob₁, ⟨kw, some ((List.range folds).map (score ob₂)), mean ((List.range folds).map (score ob₂))⟩)
    else .ok (ob₁, ⟨kw, none, score ob₁ draw⟩)

/-- `study.optimize(obj_fun, n_trials=n_trials)`, trainer.py L153: the trials run one after the other on the same model object; an exception ends the search. -/
def study (c : Cls N V) (full : Bool) (folds : ℕ) (score : Obj N V → ℕ → Option ℚ) (draw : ℕ → ℕ) (sampler : List (Trial N V) → List (N × V)) :
    ℕ → Obj N V → List (Trial N V) → Except PyErr (Obj N V × List (Trial N V))
  | 0, ob, h => .ok (ob, h)
  | n + 1, ob, h =>
    match objective c full folds score (draw h.length) ob (sampler h) with
    | .error e => .error e
    | .ok (ob₁, tr) => study c full folds score draw sampler n ob₁ (h ++ [tr])

/-- `hyperpar_optimizer`, trainer.py L109-155: the study holds the trials; the object is the caller's. -/
def search (c : Cls N V) (full : Bool) (folds : ℕ) (score : Obj N V → ℕ → Option ℚ) (draw : ℕ → ℕ) (sampler : List (Trial N V) → List (N × V)) (n : ℕ) (ob : Obj N V) :
    Except PyErr (Obj N V × List (Trial N V)) := study c full folds score draw sampler n ob []

/-! ### `retrieve_cv_results`, trainer.py L163-171 -/

/-- The distinct values in increasing order. -/
def distinct (vals : List (Option ℚ)) : List ℚ := (vals.filterMap id).dedup.insertionSort (· ≤ ·)

/-- `trials_df['value'].rank(method='dense').astype('Int64')`, L170: position of the value among the distinct values, from 1; NA for NaN. -/
def denseRank (vals : List (Option ℚ)) : List (Option ℕ) :=
  vals.map (fun v => match v with
    | none => none
    | some q => some ((distinct vals).idxOf q + 1))

/-- Variance of the fold scores with denominator the number of folds (`.std(axis=1)` of numpy has `ddof=0`); `cv_test_score_std` is its square root. -/
def variance (l : List ℚ) : ℚ := (l.map (fun x => (x - l.sum / l.length) * (x - l.sum / l.length))).sum / l.length

/-- The column of squared `cv_test_score_std`, L165-168: absent if no trial has a user attribute; `np.vstack` needs rows of one length. Trials without the attribute (mixed studies) are not
represented: they would hold a NaN, a row of length 1. -/
def stdColumn (trials : List (Trial N V)) : Except PyErr (Option (List (Option ℚ))) :=
  match trials.filterMap (·.attr) with
  | [] => .ok none
  | r :: rs =>
    if rs.all (fun r' => decide (r'.length = r.length)) then
      .ok (some ((r :: rs).map (fun l => (l.mapM id).map variance)))
    else .error .valueError

end PyF.Hyper
