import Verif.Fmt.Model
import Verif.Ols.Model

/-!
Model of the use of a `Formatter` together with a `LinearForecaster` (`pyforecaster/formatter.py` L212-268 and
`pyforecaster/forecaster.py` L333-349): transform a raw frame, fit, transform a newer raw frame with the formatter as the training left it, predict.
Both parts are the models `Verif.Fmt` and `Verif.Ols`; here are the hand-over and the checks of scikit-learn on it. The numbers of features
`d` and of targets `m` are part of the type of the coefficients; frames of another width are a `ValueError`, as in scikit-learn.
-/

namespace PyF.Pipe
open PyF PyF.Names PyF.Transform PyF.Fmt

variable {I : Type} [DecidableEq I] {d m : ℕ}

/-- Entry `k` of row `t` of a frame as a real number; only used for frames without NaN. -/
noncomputable def rowAt (n : ℕ) (cols : List (Str × Col)) (t : ℕ) (k : Fin n) : ℝ :=
  ((cols[k.val]?).bind (fun p => (p.2[t]?).join)).elim 0 (fun q : ℚ => (q : ℝ))

/-- scikit-learn's checks on its input, forecaster.py L342, L347: at least one row, the right number of columns, no NaN. -/
def accepted (n : ℕ) (x : IFrame I) : Bool :=
  decide (0 < x.index.length) && decide (x.cols.length = n)
    && (List.range x.index.length).all (fun t => x.cols.all (fun p => ((p.2[t]?).join).isSome))

/-- The rows given to `self.m.fit`, L342, with those of the validation part. -/
noncomputable def dataOf (d m : ℕ) (x y : IFrame I) : Except PyErr (List (Ols.Row d m)) :=
  if accepted d x && accepted m y then .ok ((List.range x.index.length).map (fun t => (rowAt d x.cols t, rowAt m y.cols t)))
  else .error .valueError

/-- `x, y = formatter.transform(F); LinearForecaster(kind=…, val_ratio=…).fit(x, y)`: the formatter and the fitted model. -/
noncomputable def fitPipe (S : Ols.Solver d m) (kind : String) (vr : Option ℝ) (fm : Formatter) (idx : List I) (F : Frame) :
    Except PyErr (Formatter × Ols.Coef d m) :=
  match transformX fm idx F true with
  | .error e => .error e
  | .ok (fm', x, y) =>
    match dataOf d m x y with
    | .error e => .error e
    | .ok rows =>
      match Ols.fit S kind vr rows with
      | .error e => .error e
      | .ok c => .ok (fm', c)

/-- `model.predict(x)`, L346-349: a forecast per row of `x`, with its label. -/
noncomputable def predictRows (c : Ols.Coef d m) (x : IFrame I) : Except PyErr (List (I × (Fin m → ℝ))) :=
  if accepted d x then .ok (x.index.zipIdx.map (fun p => (p.1, fun j => Ols.pred c (rowAt d x.cols p.2) j)))
  else .error .valueError

/-- `x, _ = formatter.transform(G, return_target=False); model.predict(x)`. -/
noncomputable def predictPipe (c : Ols.Coef d m) (fm : Formatter) (idx : List I) (G : Frame) : Except PyErr (List (I × (Fin m → ℝ))) :=
  match transformX fm idx G false with
  | .error e => .error e
  | .ok (_, x, _) => predictRows c x

end PyF.Pipe
