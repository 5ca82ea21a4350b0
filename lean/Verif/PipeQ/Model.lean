import Verif.Pipe.Model
import Mathlib.Data.List.Sort
import Mathlib.Data.List.Dedup

/-!
Model of quantile forecasts by a `Formatter` together with a `LinearForecaster` (`pyforecaster/forecaster.py` L197-218, L333-355): the pipeline of
`Verif.Pipe` continued by the errors on the validation rows, their quantiles by hour and `predict_quantiles`, with `conditional_to_hour=True`, without cap
on the rows, for `val_ratio` between 0 and 1. Numbers are real. The scenario generator, fitted along the way (L217), is not part of it.
-/

namespace PyF.PipeQ
open PyF PyF.Names PyF.Transform PyF.Fmt PyF.Pipe

variable {I : Type} [DecidableEq I] {d m : ℕ}

/-- `np.quantile` with linear interpolation, L204, L207: virtual index `q * (n - 1)` in the sorted sample. -/
noncomputable def quantile (sample : List ℝ) (q : ℝ) : ℝ :=
  let s := sample.insertionSort (· ≤ ·)
  let v := q * ((sample.length : ℝ) - 1)
  let lo := ⌊v⌋.toNat
  let hi := min (lo + 1) (sample.length - 1)
  s.getD lo 0 + (v - ⌊v⌋) * (s.getD hi 0 - s.getD lo 0)

/-- The rows whose errors make up the distribution of an hour, L201-207: all of them unless each of the 24 hours is there. -/
def group (errs : List (Fin 24 × (Fin m → ℝ))) (h : Fin 24) : List (Fin 24 × (Fin m → ℝ)) :=
  if (errs.map Prod.fst).dedup.length ≠ 24 then errs else errs.filter (fun p => p.1 == h)

/-- Error quantiles by hour, target and level. -/
abbrev Table (m : ℕ) := Fin 24 → Fin m → List ℝ

open Classical in
/-- `_estimate_err_distr`, L197-208, for at least one row: numpy refuses levels outside of [0, 1]. -/
noncomputable def errTable (qv : List ℝ) (errs : List (Fin 24 × (Fin m → ℝ))) : Except PyErr (Table m) :=
  if ∃ q ∈ qv, q < 0 ∨ 1 < q then .error .valueError
  else .ok (fun h j => qv.map (quantile ((group errs h).map (fun p => p.2 j))))

/-- The rows the errors are taken on, `train_val_split` L313-321: without `val_ratio` all of them, else the last `int(n * val_ratio)`. -/
noncomputable def valRows {α : Type} (valRatio : Option ℝ) (rows : List α) : List α :=
  match valRatio with
  | none => rows
  | some r => rows.drop (rows.length - (⌊(rows.length : ℝ) * r⌋).toNat)

/-- A fitted forecaster: `self.m` and `self.err_distr`. -/
structure Fitted (d m : ℕ) where
  coef : Ols.Coef d m
  table : Table m

/-- `LinearForecaster.fit`, L334-344 with L211-218: the regression on the training rows, the errors of its forecasts on the validation rows. scikit-learn refuses
to fit on and to forecast for no rows. -/
noncomputable def fitLin (S : Ols.Solver d m) (kind : String) (vr : Option ℝ) (qv : List ℝ) (rows : List (Fin 24 × Ols.Row d m)) :
    Except PyErr (Fitted d m) :=
  match Ols.fit S kind vr (rows.map Prod.snd) with
  | .error e => .error e
  | .ok c =>
    if (Ols.trainRows vr (rows.map Prod.snd)).isEmpty || (valRows vr rows).isEmpty then .error .valueError
    else match errTable qv ((valRows vr rows).map (fun p => (p.1, fun j => p.2.2 j - Ols.pred c p.2.1 j))) with
      | .error e => .error e
      | .ok t => .ok ⟨c, t⟩

/-- `x, y = formatter.transform(F); LinearForecaster(kind=…, val_ratio=…, q_vect=…).fit(x, y)`; `hour` is the hour of a time stamp. -/
noncomputable def fitPipe (S : Ols.Solver d m) (kind : String) (vr : Option ℝ) (qv : List ℝ) (hour : I → Fin 24) (fm : Formatter) (idx : List I)
    (F : Frame) : Except PyErr (Formatter × Fitted d m) :=
  match transformX fm idx F true with
  | .error e => .error e
  | .ok (fm', x, y) =>
    match dataOf d m x y with
    | .error e => .error e
    | .ok rows =>
      match fitLin S kind vr qv ((x.index.map hour).zip rows) with
      | .error e => .error e
      | .ok c => .ok (fm', c)

/-- `model.predict_quantiles(x)`, L351-355: by row and target the forecast plus the error quantiles of the hour of the row. -/
noncomputable def quantRows (hour : I → Fin 24) (c : Fitted d m) (x : IFrame I) : Except PyErr (List (I × (Fin m → List ℝ))) :=
  (predictRows c.coef x).map (fun l => l.map (fun p => (p.1, fun j => (c.table (hour p.1) j).map (fun e => p.2 j + e))))

/-- `x, _ = formatter.transform(G, return_target=False); model.predict_quantiles(x)`. -/
noncomputable def quantPipe (hour : I → Fin 24) (c : Fitted d m) (fm : Formatter) (idx : List I) (G : Frame) :
    Except PyErr (List (I × (Fin m → List ℝ))) :=
  match transformX fm idx G false with
  | .error e => .error e
  | .ok (_, x, _) => quantRows hour c x

end PyF.PipeQ
