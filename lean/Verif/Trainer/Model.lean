import Verif.Common
import Mathlib.Data.Rat.Defs

/-!
Model of `pyforecaster/trainer.py` L17-72: `get_score_key` and `cross_validate`.

A frame is represented by the labels of its rows; rows are identified by position. A model object has a state; cloning, fitting on a set of rows
and the scorers are parameters. Names are lists of characters. `sklearn`'s `cross_validate` is modelled for a scorer or a dictionary of scorers; its
timing entries are left out of the values but not of the order of the keys.
-/

namespace PyF.Trainer
open PyF

/-- A key of a result or score dictionary. -/
abbrev Key := List Char

/-- A row label: an integer or a time stamp. -/
inductive Label
  | int (n : Int)
  | time (t : Int)
  deriving DecidableEq

/-- One side of a fold: positions (as given by `KFold`) or a boolean mask (as given by `time_kfcv`). -/
inductive Sel
  | pos (l : List Nat)
  | mask (m : List Bool)

/-- Positions where a mask is true. -/
def trueAt (m : List Bool) : List Nat := (List.range m.length).filter (fun (i : Nat) => m.getD i false)

/-- Rows selected by position, as done by `sklearn` inside `cross_validate`; out of bounds positions and masks of another length are an `IndexError`. -/
def iloc (labels : List Label) : Sel → Except PyErr (List Nat)
  | .pos l => if l.all (fun (p : Nat) => decide (p < labels.length)) then .ok l else .error .indexError
  | .mask m => if m.length = labels.length then .ok (trueAt m) else .error .indexError

/-- `x.loc[sel]`, L53-55, L59: a list of integers selects the rows with these labels, in the order of the list; a label that does not occur is a
`KeyError`; a mask selects by position. -/
def loc (labels : List Label) : Sel → Except PyErr (List Nat)
  | .pos l =>
    if l.all (fun (p : Nat) => decide (Label.int p ∈ labels)) then
      .ok (l.flatMap (fun (p : Nat) => (List.range labels.length).filter (fun (i : Nat) => decide (labels[i]? = some (Label.int p)))))
    else .error .keyError
  | .mask m => if m.length = labels.length then .ok (trueAt m) else .error .indexError

/-- The scoring argument: one scorer or a dictionary. -/
inductive Scoring (S : Type)
  | single (s : S)
  | dict (l : List (Key × S))

/-- The folds: a list of pairs (train, test), or a generator, which can be read once and has no length. -/
inductive Folds
  | list (l : List (Sel × Sel))
  | gen (l : List (Sel × Sel))

/-- The pairs produced by reading the folds. -/
def Folds.read : Folds → List (Sel × Sel)
  | .list l => l
  | .gen l => l

/-- A model class: cloning, fitting on rows, scoring on rows. -/
structure Cls (St S : Type) where
  clone : St → St
  fit : St → List Nat → St
  score : S → St → List Nat → ℚ

/-- `get_score_key`, L17-21, from the keys of the results. -/
def getScoreKey {S : Type} (keys : List Key) (scoring : Scoring S) (scoreKey : Option Key) : Except PyErr Key :=
  match scoring with
  | .dict [] => .error .indexError
  | .dict ((k, _) :: _) =>
    let fb := "test_".toList ++ k
    let fb := if "test_score".toList ∈ keys then "test_score".toList else fb
    .ok (scoreKey.getD fb)
  | .single _ =>
    let fb := keys.getLastD []
    let fb := if "test_score".toList ∈ keys then "test_score".toList else fb
    .ok (scoreKey.getD fb)

/-- The score entries of the results of `sklearn`'s `cross_validate`: per scorer one number per fold, from a clone fitted on the training rows of the fold. -/
def cvScores {St S : Type} (c : Cls St S) (st : St) (folds : List (List Nat × List Nat)) : Scoring S → List (Key × List ℚ)
  | .single s => [("test_score".toList, folds.map (fun f => c.score s (c.fit (c.clone st) f.1) f.2))]
  | .dict l => l.map (fun ks => ("test_".toList ++ ks.1, folds.map (fun f => c.score ks.2 (c.fit (c.clone st) f.1) f.2)))

/-- Rows of all the folds, by position. -/
def ilocFolds (labels : List Label) : List (Sel × Sel) → Except PyErr (List (List Nat × List Nat))
  | [] => .ok []
  | f :: fs =>
    match iloc labels f.1, iloc labels f.2 with
    | .ok a, .ok b =>
      match ilocFolds labels fs with
      | .ok r => .ok ((a, b) :: r)
      | .error e => .error e
    | .error e, _ => .error e
    | _, .error e => .error e

/-- Mean of the scores. -/
def mean (l : List ℚ) : ℚ := l.sum / l.length

/-- Rows of the stored test targets, L53-55: `y.loc` for every test side, `len(cv_folds)` for the predictions. A generator has been consumed by `sklearn`
before; its `len` is a `TypeError`. -/
def stored (labels : List Label) : Folds → Except PyErr (List (List Nat))
  | .gen _ => .error .typeError
  | .list l => l.mapM (fun f => loc labels f.2)

/-- What `cross_validate` returns: score entries, score, rows of the stored targets; and the state in which it leaves the model object. -/
structure Result (St : Type) where
  scores : List (Key × List ℚ)
  score : ℚ
  stored : List (List Nat)
  model : St

/-- `cross_validate` with `cv_type='full'`, L43-56. The time measurements are not modelled: a score key naming one of them is treated as missing. -/
def full {St S : Type} (c : Cls St S) (st : St) (labels : List Label) (folds : Folds) (scoring : Scoring S) (scoreKey : Option Key) (storage : Bool) : Except PyErr (Result St) :=
  match ilocFolds labels folds.read with
  | .error e => .error e
  | .ok rows =>
    let res := cvScores c st rows scoring
    let timing := ["fit_time".toList, "score_time".toList] ++ (if storage then ["estimator".toList] else [])
    match getScoreKey (timing ++ res.map (·.1)) scoring scoreKey with
    | .error e => .error e
    | .ok key =>
      match res.lookup key with
      | none => .error .keyError
      | some l =>
        if storage then
          match stored labels folds with
          | .error e => .error e
          | .ok r => .ok { scores := res, score := mean l, stored := r, model := st }
        else .ok { scores := res, score := mean l, stored := [], model := st }

/-- `cross_validate` with `cv_type='random_fold'`, L57-68; `k` is the drawn fold. The model object itself is fitted. -/
def randomFold {St S : Type} (c : Cls St S) (st : St) (labels : List Label) (folds : Folds) (k : Nat) (scoring : Scoring S) (scoreKey : Option Key) (storage : Bool) : Except PyErr (Result St) :=
  match folds with
  | .gen _ => .error .typeError
  | .list l =>
    match l[k]? with
    | none => .error .valueError
    | some f =>
      match loc labels f.1, loc labels f.2 with
      | .ok tr, .ok te =>
        let st' := c.fit st tr
        let res := match scoring with
          | .dict d => d.map (fun ks => (ks.1, [c.score ks.2 st' te]))
          | .single s => [("test_score".toList, [c.score s st' te])]
        match getScoreKey (res.map (·.1)) scoring scoreKey with
        | .error e => .error e
        | .ok key =>
          match res.lookup key with
          | none => .error .keyError
          | some v => .ok { scores := res, score := mean v, stored := if storage then [te] else [], model := st' }
      | .error e, _ => .error e
      | _, .error e => .error e

/-- `cross_validate`, L23-72. -/
def crossValidate {St S : Type} (c : Cls St S) (st : St) (labels : List Label) (folds : Folds) (cvType : Key) (k : Nat) (scoring : Scoring S) (scoreKey : Option Key) (storage : Bool) :
    Except PyErr (Result St) :=
  if cvType = "full".toList then full c st labels folds scoring scoreKey storage
  else if cvType = "random_fold".toList then randomFold c st labels folds k scoring scoreKey storage
  else .error .valueError

end PyF.Trainer
