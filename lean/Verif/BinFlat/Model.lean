import Verif.Binned.Model
import Mathlib.Data.Int.Order.Basic

/-!
Model of the `agg_bins` branch of `Transformer` with `nested=False` and of `Reducer` (`pyforecaster/formatter.py` L690-693, L748, L777-788,
L799-811, L824-839, L851-864) for one variable. Columns, durations and labels as in `Verif.Binned`; bin borders are natural numbers in descending order.

Simplified: an aggregation function is a map from the samples of a bin to a value or NaN (what `scipy.stats.binned_statistic` computes with it); time stamps
are distinct, so that the concatenation of L811 places rows by their position.
-/

namespace PyF.BinFlat
open PyF PyF.Names PyF.Transform PyF.Binned

/-- `self.agg_bins`, L693: distances of the borders from the largest. -/
def edges (b : List Nat) : List Nat := b.map (fun x => b.headD 0 - x)

/-- The bin of `scipy.stats.binned_statistic` position `i` falls in, counted from 1, L863: borders belong to the bin on their right, the last one to the bin on
its left. -/
def binNo (e : List Nat) (i : Nat) : Nat :=
  if i = e.getLastD 0 then (e.filter (fun x => decide (x ≤ i))).length - 1 else (e.filter (fun x => decide (x ≤ i))).length

/-- The positions `np.arange(n)` that fall in bin `k`, counted from 0, L863. -/
def members (e : List Nat) (n k : Nat) : List Nat := (List.range n).filter (fun i => binNo e i == k + 1)

/-- `Reducer.reduce`, L862-864: the row of statistics stored for a window `x`. scipy refuses borders that do not increase and less than two of them. -/
def reduce (f : List ℚ → Option ℚ) (e : List Nat) (x : List ℚ) : Except PyErr (List (Option ℚ)) :=
  if 2 ≤ e.length ∧ e.Pairwise (· < ·) then
    .ok ((List.range (e.length - 1)).map (fun k => f ((members e x.length k).map (fun i => x.getD i 0))))
  else .error .valueError

/-- The forward window of row `t`, L784-785: `s` rows from `t` on; `none` with fewer than `s` observations. -/
def windowAt (c : Col) (s t : Nat) : Option (List ℚ) :=
  if (((c.drop t).take s).filterMap id).length < s then none else some (((c.drop t).take s).filterMap id)

/-- The calls of `reducer.reduce`, L785: the rows with a full window, and the windows. -/
def calls (c : Col) (s : Nat) : List (Nat × List ℚ) := (List.range c.length).filterMap (fun t => (windowAt c s t).map (fun w => (t, w)))

/-- The rows and their statistics, L785-787; `np.vstack` of nothing raises. -/
def flatStats (f : List ℚ → Option ℚ) (b : List Nat) (c : Col) : Except PyErr (List (Nat × List (Option ℚ))) :=
  if calls c (binSteps b) = [] then .error .valueError
  else (calls c (binSteps b)).mapM (fun p => (reduce f (edges b) p.2).map (fun r => (p.1, r)))

/-- `pd.concat([data, d], axis=1)`, L811: the values of the rows kept go to their row, the others are NaN. -/
def place (rows : List Nat) (v : Col) (n : Nat) : Col := (List.range n).map (fun t => ((rows.zip v).lookup t).join)

/-- The column of a bin, shifted among the rows kept: by the largest border minus one, L788, and by a lag, L805. -/
def binCol (b : List Nat) (st : List (Nat × List (Option ℚ))) (k : Nat) (lag : Option Int) : Col :=
  let d := shift ((b.headD 0 : Int) - 1) (st.map (fun r => r.2.getD k none))
  match lag with
  | none => d
  | some l => shift l d

/-- The columns of one lag, `product(function_names, bins)`, L778-780, L787-788. -/
def lagCols (b : List Nat) (sts : List (Str × List (Nat × List (Option ℚ)))) (n : Nat) (lag steps : Option Int) : List (Label × Col) :=
  sts.flatMap (fun q => (pairs b).zipIdx.map (fun p =>
    ({ lag := lag, bin := p.1, fn := q.1 }, place (q.2.map Prod.fst) (binCol b q.2 p.2 steps) n)))

/-- The columns with their labels, L777-788, L799-811. `pd.concat` of no frames raises. -/
def columns (fs : List Fn) (b : List Nat) (relative : Bool) (lags : Option (List Int)) (c : Col) : Except PyErr (List (Label × Col)) :=
  match fs.mapM (fun f => (flatStats f.ev b c).map (fun st => (f.name, st))) with
  | .error e => .error e
  | .ok sts =>
    match lags with
    | none => .ok (lagCols b sts c.length none none)
    | some [] => .error .valueError
    | some (l :: ls) => .ok ((l :: ls).flatMap (fun l => lagCols b sts c.length (some l) (some (l * (if relative then (binSteps b : Int) else 1)))))

/-- The metadata columns `start_time` and `end_time`, L836-839: `product(function_names, bins, lag_steps)`. -/
def metaTimes (fs : List Fn) (b : List Nat) (relative : Bool) (lags : Option (List Int)) (dt : Nat) : List (Int × Int) :=
  fs.flatMap (fun _ => (pairs b).flatMap (fun p => (lagSteps b relative lags).map
    (fun l => (-(dt : Int) * (p.1 + l) + dt, -(dt : Int) * (p.2 + l) + dt))))

end PyF.BinFlat
