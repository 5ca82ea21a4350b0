import Verif.Common

/-!
Model of what repeated calls of `fit` do to the list of fitted sub-models, and of which of them `predict` uses.

* `LGBForecaster.fit/predict`, `pyforecaster/forecaster.py` L391-407
* `LGBMHybrid.fit/predict`, `pyforecaster/forecasting_models/gradientboosters.py` L78-155
* `QRF.fit/predict`, `pyforecaster/forecasting_models/randomforests.py` L102-163

`D` is the type of training sets `(x, y)`; `width d` is `y.shape[1]`. The regressors are oracles:
`train d i` is the model fitted on column `i` of `d`, `trainMulti d` the global multi-step model, `pred m x` the
column predicted by `m` and `predMulti g j x` the column predicted by the global model for its `j`-th step.
Not modelled: exceptions raised inside the regressors, the validation split and the error quantiles (see
`Verif.Split`, `Verif.Quantile`), `anti_transform` (the formatter is `None`).
-/

namespace PyF.Refit
open PyF

/-- The oracles. -/
structure Oracle (D M G X V : Type) where
  width : D → Nat
  train : D → Nat → M
  trainMulti : D → G
  pred : M → X → V
  predMulti : G → Nat → X → V

variable {D M G X V : Type}

/-- `pd.DataFrame(np.hstack(preds), index=x.index, columns=self.target_cols)`: `hstack` refuses an empty list,
the frame constructor refuses a wrong number of column labels; no labels (`None`) fit any array. -/
def mkFrame (cols : List V) (targetCols : Option Nat) : Except PyErr (List V) :=
  if cols.isEmpty then .error .valueError
  else match targetCols with
    | none => .ok cols
    | some n => if cols.length = n then .ok cols else .error .valueError

/-! ### LGBForecaster -/

/-- Attributes `m` (forecaster.py L364) and `target_cols` (L213), of which only the length matters. -/
structure LState (M : Type) where
  m : List M
  targetCols : Option Nat

/-- `LGBForecaster.__init__`, forecaster.py L364. -/
def LState.fresh : LState M := ⟨[], none⟩

/-- `LGBForecaster.predict`, forecaster.py L401-407: one column for every element of `self.m`. -/
def lgbPredict (o : Oracle D M G X V) (s : LState M) (x : X) : Except PyErr (List V) :=
  mkFrame (s.m.map (fun m => o.pred m x)) s.targetCols

/-- `LGBForecaster.fit`, forecaster.py L391-399 with `ScenarioGenerator.fit` L211-218: the fitted models are appended, the
target labels replaced, then `predict` is called on the validation rows `xVal`; its exception propagates but the
attributes stay changed. -/
def lgbFit (o : Oracle D M G X V) (xVal : D → X) (s : LState M) (d : D) : LState M × Option PyErr :=
  let s' : LState M := ⟨s.m ++ (List.range (o.width d)).map (o.train d), some (o.width d)⟩
  match lgbPredict o s' (xVal d) with
  | .ok _ => (s', none)
  | .error e => (s', some e)

/-- The object after a history of `fit` calls, the caller catching the exceptions. -/
def lgbHistory (o : Oracle D M G X V) (xVal : D → X) (s : LState M) : List D → LState M
  | [] => s
  | d :: ds => lgbHistory o xVal (lgbFit o xVal s d).1 ds

/-! ### LGBMHybrid and QRF -/

/-- Attributes `models`, `multi_step_model`, `n_multistep`, `target_cols`
(gradientboosters.py L51-53, randomforests.py L45-47). -/
structure HState (M G : Type) where
  models : List M
  multi : Option G
  nMulti : Option Nat
  targetCols : Option Nat

def HState.fresh : HState M G := ⟨[], none, none, none⟩

/-- `[self.models[i].predict(..) for i in range(self.n_single)]` (gradientboosters.py L130-135,
randomforests.py L130-137). -/
def singles (o : Oracle D M G X V) (models : List M) (nSingle : Nat) (x : X) : Except PyErr (List V) :=
  match takeRows models (List.range nSingle) with
  | .error e => .error e
  | .ok ms => .ok (ms.map (fun m => o.pred m x))

/-- `predict` (gradientboosters.py L127-141, randomforests.py L127-153 without quantiles).
`None > 0` raises `TypeError` when the object was never fitted. -/
def hybPredict (o : Oracle D M G X V) (nSingle : Nat) (s : HState M G) (x : X) : Except PyErr (List V) :=
  match singles o s.models nSingle x with
  | .error e => .error e
  | .ok cols =>
    match s.nMulti with
    | none => .error .typeError
    | some k =>
      if k > 0 then
        match s.multi with
        | none => .error .attributeError
        | some g => mkFrame (cols ++ (List.range k).map (fun j => o.predMulti g j x)) s.targetCols
      else mkFrame cols s.targetCols

/-- `fit` (gradientboosters.py L78-118, randomforests.py L102-124). With `parallel` the list is replaced
(L83, L106 respectively), otherwise every fitted model is appended (L90, L110); column `i ≥ width` raises `IndexError`
after the models before it were appended. -/
def hybFit (o : Oracle D M G X V) (xVal : D → X) (nSingle : Nat) (parallel : Bool) (s : HState M G) (d : D) :
    HState M G × Option PyErr :=
  let w := o.width d
  let new := (List.range (min nSingle w)).map (o.train d)
  if w < nSingle then
    if parallel then (s, some .indexError) else ({ s with models := s.models ++ new }, some .indexError)
  else
    let s' : HState M G :=
      { models := if parallel then new else s.models ++ new
        multi := if w - nSingle > 0 then some (o.trainMulti d) else s.multi
        nMulti := some (w - nSingle)
        targetCols := some w }
    match hybPredict o nSingle s' (xVal d) with
    | .ok _ => (s', none)
    | .error e => (s', some e)

def hybHistory (o : Oracle D M G X V) (xVal : D → X) (nSingle : Nat) (parallel : Bool) (s : HState M G) :
    List D → HState M G
  | [] => s
  | d :: ds => hybHistory o xVal nSingle parallel (hybFit o xVal nSingle parallel s d).1 ds

end PyF.Refit
