import Verif.Pipe.Model

/-!
Model of the use of a `Formatter` with a `LinearForecaster` as in `Verif.Pipe`, with the names of the columns: scikit-learn keeps the names of
the features at `fit` and refuses others, or the same in another order, at `predict`; the forecasts carry the names of the targets
(`pyforecaster/forecaster.py` L213, L334-349). Simplified: as in `Verif.Pipe`; column names are strings.
-/

namespace PyF.PipeOrd
open PyF PyF.Names PyF.Transform PyF.Fmt PyF.Pipe

variable {I : Type} [DecidableEq I] {d m : ℕ}

/-- What is kept of training: the formatter, `self.m`, its `feature_names_in_` (L337, L339), `self.target_cols` (L213). -/
structure Fitted (d m : ℕ) where
  fm : Formatter
  coef : Ols.Coef d m
  featNames : List Str
  targetNames : List Str

/-- `x, y = formatter.transform(F); LinearForecaster(kind=…, val_ratio=…).fit(x, y)`, L334-344. -/
noncomputable def fitNamed (S : Ols.Solver d m) (kind : String) (vr : Option ℝ) (fm : Formatter) (idx : List I) (F : Frame) : Except PyErr (Fitted d m) :=
  match transformX fm idx F true with
  | .error e => .error e
  | .ok (fm', x, y) =>
    match dataOf d m x y with
    | .error e => .error e
    | .ok rows =>
      match Ols.fit S kind vr rows with
      | .error e => .error e
      | .ok c => .ok ⟨fm', c, x.cols.map Prod.fst, y.cols.map Prod.fst⟩

/-- `x, _ = formatter.transform(G, return_target=False); model.predict(x)`, L346-349: per row its label and the forecasts under the names of the targets. -/
noncomputable def predictNamed (g : Fitted d m) (idx : List I) (G : Frame) : Except PyErr (List (I × List (Str × ℝ))) :=
  match transformX g.fm idx G false with
  | .error e => .error e
  | .ok (_, x, _) =>
    if x.cols.map Prod.fst = g.featNames then
      (predictRows g.coef x).map fun l => l.map fun p => (p.1, List.ofFn fun j : Fin m => ((g.targetNames[j.val]?).getD [], p.2 j))
    else .error .valueError

end PyF.PipeOrd
