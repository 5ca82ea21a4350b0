import Verif.Quantile.Model
import Verif.Bench.Model

/-!
Model of how quantile forecasts of a whole frame are assembled: `_predict_quantiles` of the linear and LightGBM forecasters
(`pyforecaster/forecaster.py` L351-355, L409-413), of `LGBMHybrid` (`gradientboosters.py` L168-172) and of the persistent
forecasters (`benchmarks.py` L24-32, L57-65), as the code does it: one masked addition per hour present in the index.
`Verif.Quantile` has the same functions row by row.
-/

namespace PyF.Serve
open PyF PyF.Quantile

/-- `np.unique(x.index.hour)`: the hours present, increasing. -/
def uniqueHours (hours : List (Fin 24)) : List (Fin 24) := (List.finRange 24).filter (fun h => hours.contains h)

/-- `np.expand_dims(self.err_distr[h], 0)`: what is added to the rows of hour `h`. A table that is not split by hour is
indexed by its row number `h` and that row is broadcast over the targets. -/
def lookup {T : Nat} (ed : ErrDistr T) (h : Fin 24) : Except PyErr (Table T) :=
  match ed with
  | .unfitted => .error .keyError
  | .byHour f => .ok (f h)
  | .pooled t => if hh : h.val < T then .ok (fun _ => t ⟨h.val, hh⟩) else .error .indexError

/-- `preds[x.index.hour == h, :, :] += d`: rows of other hours keep their values. -/
def addWhere {T : Nat} (h : Fin 24) (d : Table T) (hours : List (Fin 24)) (preds : List (Table T)) : List (Table T) :=
  List.zipWith (fun (g : Fin 24) (p : Table T) => if g = h then fun (j : Fin T) => List.zipWith (fun (a b : ℚ) => a + b) (p j) (d j) else p) hours preds

/-- One turn of the loop over the hours, `forecaster.py` L353-354. -/
def turn {T : Nat} (ed : ErrDistr T) (hours : List (Fin 24)) (preds : List (Table T)) (h : Fin 24) : Except PyErr (List (Table T)) :=
  match lookup ed h with
  | .error e => .error e
  | .ok d => .ok (addWhere h d hours preds)

/-- `np.expand_dims(self.predict(x), -1) * np.ones((1, 1, len(self.q_vect)))`, `forecaster.py` L352. -/
def spread {X : Type} {T : Nat} (predict : X → Fin T → ℚ) (nq : Nat) (rows : List (X × Fin 24)) : List (Table T) :=
  rows.map (fun (r : X × Fin 24) => fun (j : Fin T) => List.replicate nq (predict r.1 j))

/-- `_predict_quantiles` of `LinearForecaster`, `LGBForecaster` and `LGBMHybrid`, `forecaster.py` L351-355, L409-413 and
`gradientboosters.py` L168-172. -/
def hourly {X : Type} {T : Nat} (predict : X → Fin T → ℚ) (nq : Nat) (ed : ErrDistr T) (rows : List (X × Fin 24)) : Except PyErr (List (Table T)) :=
  (uniqueHours (rows.map Prod.snd)).foldlM (turn ed (rows.map Prod.snd)) (spread predict nq rows)

/-- `_predict_quantiles` of `Persistent` and `SeasonalPersistent`, `benchmarks.py` L24-32 and L57-65: the loop is only used
with `conditional_to_hour=True`. `preds += np.expand_dims(err_distr, 0)` on a dict raises a `TypeError`. -/
def persistent {X : Type} {T : Nat} (conditional : Bool) (predict : X → Fin T → ℚ) (nq : Nat) (ed : ErrDistr T) (rows : List (X × Fin 24)) :
    Except PyErr (List (Table T)) :=
  if conditional then hourly predict nq ed rows
  else match ed with
    | .pooled t => .ok ((spread predict nq rows).map (fun (p : Table T) => fun (j : Fin T) => List.zipWith (fun (a b : ℚ) => a + b) (p j) (t j)))
    | _ => .error .typeError

/-- `SeasonalPersistent.fit`, `benchmarks.py` L45-50, without a validation set (`val_ratio=None`, the default): the state is the end of
the very values the errors are measured on. -/
def seasFitAll (s nsa : Nat) (qv y : List ℚ) : Except PyErr (List ℚ × List (List ℚ)) := Bench.seasFit s nsa qv y y

end PyF.Serve
