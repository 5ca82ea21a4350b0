import Verif.Statsmodels.Model

/-!
The regular index `ExponentialSmoothing` gives its frames: pyforecaster/forecasting_models/statsmodels_wrapper.py L51-68.

Times are integers, `day` of them to a day. Simplifications: `pd.infer_freq` is modelled for steps shorter than a day or not whole days; what it finds when
the smallest step is a number of days is the parameter `other`, its business hours and decreasing times are left out; the estimation of the parameters
(L60) is a parameter.
-/

namespace PyF.EsFreq

open PyF PyF.Statsmodels

/-- A column of a frame: times and values, NaN as `none`. -/
abbrev Col := List (ℤ × Option ℚ)

/-- The steps of an index, in `pd.infer_freq` called by L58 and L65. -/
def diffs (ts : List ℤ) : List ℤ := List.zipWith (fun a b => a - b) ts.tail ts

/-- `pd.infer_freq`, L58 and L65: needs three times; nothing found for times that do not grow or for steps that differ. -/
def inferFreq (day : ℤ) (other : List ℤ → Option ℤ) (ts : List ℤ) : Except PyErr (Option ℤ) :=
  if ts.length < 3 then .error .valueError
  else if ¬ ts.Pairwise (· < ·) then .ok none
  else if ((diffs ts).min?.getD 0) % day = 0 then .ok (other ts)
  else if (diffs ts).all (fun s => s == (diffs ts).min?.getD 0) then .ok (some ((diffs ts).min?.getD 0))
  else .ok none

/-- `pd.date_range` from the first to the last time, as called by `asfreq`, L58 and L65; without a frequency the step is a day. -/
def dateRange (day : ℤ) (freq : Option ℤ) (ts : List ℤ) : List ℤ :=
  let lo := ts.min?.getD 0
  let hi := ts.max?.getD 0
  let s := freq.getD day
  (List.range (((hi - lo) / s).toNat + 1)).map (fun (k : ℕ) => lo + (k : ℤ) * s)

/-- The value at a time after reindexing, L58 and L65; NaN where the frame has no such time. -/
def valueAt (c : Col) (t : ℤ) : Option ℚ := (c.find? (fun r => r.1 == t)).bind Prod.snd

/-- `x_pd.asfreq(pd.infer_freq(x_pd.index))`, L58 and L65; repeated times cannot be reindexed. -/
def regular (day : ℤ) (other : List ℤ → Option ℤ) (c : Col) : Except PyErr Col :=
  match inferFreq day other (c.map Prod.fst) with
  | .error e => .error e
  | .ok freq =>
    if ¬ (c.map Prod.fst).Nodup then .error .valueError
    else .ok ((dateRange day freq (c.map Prod.fst)).map (fun t => (t, valueAt c t)))

/-- `ExponentialSmoothing.predict`, L64-68: the forecasts with the index of the regular frame. -/
def predict {M : Type} (L : Lib M (ℤ × Option ℚ)) (day : ℤ) (other : List ℤ → Option ℤ) (n : ℕ) (m : M) (c : Col) : Except PyErr (List (ℤ × List ℚ)) :=
  match regular day other c with
  | .error e => .error e
  | .ok r => .ok ((r.map Prod.fst).zip (getForecasts L n m r))

/-- `ExponentialSmoothing.fit`, L57-62, up to the forecasts of the training frame made at L35: the parameters are estimated on the regular frame, which
`predict` makes regular again. -/
def fit {M : Type} (L : Lib M (ℤ × Option ℚ)) (day : ℤ) (other : List ℤ → Option ℤ) (n : ℕ) (estimate : Col → M) (c : Col) : Except PyErr (M × List (ℤ × List ℚ)) :=
  match regular day other c with
  | .error e => .error e
  | .ok r =>
    match predict L day other n (estimate r) r with
    | .error e => .error e
    | .ok p => .ok (estimate r, p)

end PyF.EsFreq
