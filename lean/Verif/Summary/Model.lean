import Verif.Common
import Verif.Quantile.Model
import Mathlib.Data.Rat.Defs
import Mathlib.Algebra.Order.Field.Rat
import Mathlib.Data.List.Dedup

/-!
Model of `summary_score` and `summary_scores`, `pyforecaster/metrics.py` L141-188, and of `quantile_scores` on data with missing targets, L52-90.

A cell is a rational number or missing (`none`, NaN). Frames have single-level columns; time stamps are integers. Values outside the shape of
a frame do not exist. Square roots are left out: the `rmse` table holds the mean squares. Index columns of dtype `object` hold strings. The lower
edge of the first interval of `pd.qcut`, which pandas decreases a little, is kept and counted as inside. The dtype of a masked frame (`object`) is
not modelled.
-/

namespace PyF.Summary
open PyF

abbrev Cell := Option ℚ
abbrev Vals := Nat → Nat → Cell

/-- A frame: time stamps, column labels, values. -/
structure DF where
  index : List ℤ
  cols : List String
  val : Vals

/-- Forecast or target: a frame or a two-dimensional array. -/
inductive Arg
  | df (d : DF)
  | arr (n m : Nat) (val : Vals)

/-- `x.columns` of a frame. -/
def Arg.cols : Arg → Option (List String)
  | .df d => some d.cols
  | .arr _ _ _ => none

/-- Mean of the cells that are not missing. -/
def mean (l : List Cell) : Cell :=
  let v := l.filterMap id
  if v = [] then none else some (v.sum / v.length)

/-- Operation on two cells. -/
def lift2 (f : ℚ → ℚ → ℚ) (a b : Cell) : Cell := a.bind fun x => b.map fun y => f x y

/-- The point metrics. -/
inductive Metric
  | rmse
  | mape
  | nmae
  deriving DecidableEq

/-- `t.abs().mean(axis=1)`, L42, L44. -/
def rowScale (m : Nat) (t : Vals) (i : Nat) : Cell := mean ((List.range m).map (fun (j : Nat) => (t i j).map (fun y => |y|)))

/-- The offset of `nmae`, L42. -/
def offset (n m : Nat) (t : Vals) : Cell :=
  let s := (List.range n).filterMap (fun (i : Nat) => rowScale m t i)
  if s = [] then none else some (Quantile.quantileVal s (1 / 2) * (1 / 100) + 1 / 1000000000000)

/-- The table that is averaged: L20 (`rmse`), L31 (`mape`), L44 (`nmae`). -/
def errTable (k : Metric) (n m : Nat) (x t : Vals) : Vals := fun i j =>
  match k with
  | .rmse => lift2 (fun a b => (a - b) ^ 2) (x i j) (t i j)
  | .mape => lift2 (fun a b => |(a - b) / (|b| + 1 / 100000)|) (x i j) (t i j)
  | .nmae => (lift2 (fun a b => a - b) (x i j) (t i j)).bind fun e =>
      (rowScale m t i).bind fun s => (offset n m t).map fun o => |e / (s + o)|

/-- Label of a group. -/
inductive Lab
  | num (v : ℚ)
  | txt (s : String)
  | bin (lo hi : ℚ)
  deriving DecidableEq

/-- Positions with label `l`; rows with a missing label belong to no group. -/
def members (agg : List (Option Lab)) (l : Lab) : List Nat :=
  (List.range agg.length).filter (fun (i : Nat) => decide (agg[i]? = some (some l)))

/-- A table of scores: whether rows were grouped, and the score per label and remaining position. -/
structure Score where
  overRows : Bool
  val : Lab → Nat → Cell

/-- `groupby(agg_index, observed=False).mean()` along the axis chosen by `chose_axis`, L6-7, L22-25, L33-36, L45-48. -/
def aggregate (n m : Nat) (agg : List (Option Lab)) (res : Vals) : Except PyErr Score :=
  if n = agg.length then .ok ⟨true, fun l j => mean ((members agg l).map (fun (i : Nat) => res i j))⟩
  else if m = agg.length then .ok ⟨false, fun l i => mean ((members agg l).map (fun (j : Nat) => res i j))⟩
  else .error .valueError

/-- The two frames `summary_score` computes with and the new state of the frame passed as `x`, L142-152. Two frames: the columns of `x` are
replaced in place by those of `t`. One frame: the other argument becomes a frame with the same labels. Two arrays stay arrays. -/
def prepare (x t : Arg) : Arg × Except PyErr (Option (DF × DF)) :=
  match x, t with
  | .df dx, .df dt =>
    if dx.cols.length = dt.cols.length then
      let dx' : DF := { dx with cols := dt.cols }
      (.df dx', .ok (some (dx', dt)))
    else (x, .error .valueError)
  | .df dx, .arr n m v =>
    if n = dx.index.length ∧ m = dx.cols.length then (x, .ok (some (dx, { dx with val := v }))) else (x, .error .valueError)
  | .arr n m v, .df dt =>
    if n = dt.index.length ∧ m = dt.cols.length then (x, .ok (some ({ dt with val := v }, dt))) else (x, .error .valueError)
  | .arr _ _ _, .arr _ _ _ => (x, .ok none)

/-- `summary_score(x, t, score, agg_index)`, L141-154, for a point metric and frames with the same time stamps. Arrays have no `groupby` (`abs`). -/
def summaryScore (x t : Arg) (k : Metric) (agg : List (Option Lab)) : Arg × Except PyErr Score :=
  match prepare x t with
  | (x', .error e) => (x', .error e)
  | (x', .ok none) => (x', .error .attributeError)
  | (x', .ok (some (dx, dt))) => (x', aggregate dx.index.length dx.cols.length agg (errTable k dx.index.length dx.cols.length dx.val dt.val))

/-- A boolean frame. -/
structure Mask where
  index : List ℤ
  m : Nat
  val : Nat → Nat → Bool

/-- `x * mask[mask].values`, L168-169: `mask[mask]` is 1.0 or missing. A frame takes a mask of its shape, of one column or of one row; arrays are
broadcast in both directions. -/
def maskMul (x : Arg) (k : Mask) : Except PyErr Arg :=
  let n' := k.index.length
  let m' := k.m
  let cut (n m : Nat) (v : Vals) : Vals := fun i j =>
    if i < n ∧ j < m then (if k.val (if n' = 1 then 0 else i) (if m' = 1 then 0 else j) then v i j else none) else none
  match x with
  | .df d =>
    let n := d.index.length
    let m := d.cols.length
    if (n' = n ∧ m' = m) ∨ (n' = n ∧ m' = 1) ∨ (n' = 1 ∧ m' = m) then .ok (.df { d with val := cut n m d.val })
    else .error .valueError
  | .arr n m v =>
    if (n' = n ∨ n' = 1 ∨ n = 1) ∧ (m' = m ∨ m' = 1 ∨ m = 1) then
      let n'' := if n = 1 then n' else n
      let m'' := if m = 1 then m' else m
      .ok (.arr n'' m'' (cut n'' m'' (fun i j => v (if n = 1 then 0 else i) (if m = 1 then 0 else j))))
    else .error .valueError

/-- The time stamps of the arguments that are frames, L162. -/
def indexes (x t : Arg) (mask : Option Mask) : List (List ℤ) :=
  (match x with | .df d => [d.index] | .arr _ _ _ => []) ++ (match t with | .df d => [d.index] | .arr _ _ _ => []) ++
  (match mask with | some k => [k.index] | none => [])

/-- The check L163-165 over all ordered pairs: comparing indexes of different lengths raises a `ValueError`. -/
def checkIndexes (l : List (List ℤ)) : Except PyErr Unit :=
  if l.any (fun a => l.any (fun b => decide (a.length ≠ b.length))) then .error .valueError
  else if l.any (fun a => l.any (fun b => decide (a ≠ b))) then .error .assertionError
  else .ok ()

/-- Types of index columns; `float` stands for every numeric type not named. -/
inductive DType
  | int64
  | int32
  | int8
  | object
  | float
  | bool
  deriving DecidableEq

/-- A column of `idxs`. -/
structure IdxCol where
  name : String
  dtype : DType
  vals : List (Option Lab)

/-- The frame `idxs`: its time stamps and columns. -/
structure Idxs where
  index : List ℤ
  cols : List IdxCol

/-- `len(agg_indexes[k].value_counts())`, L173-175. -/
def IdxCol.distinct (c : IdxCol) : Nat := (c.vals.filterMap id).dedup.length

/-- A numeric entry. -/
def numOf : Lab → Option ℚ
  | .num v => some v
  | _ => none

/-- Edges of `pd.qcut(v, q, duplicates='drop')`: the distinct quantiles of the values present. -/
def edges (vals : List ℚ) (q : Nat) : List ℚ := ((List.range (q + 1)).map (fun (i : Nat) => Quantile.quantileVal vals ((i : ℚ) / q))).dedup

/-- Interval of a value: the edges below it are counted; the first edge belongs to the first interval. -/
def binOf (es : List ℚ) (v : ℚ) : Option Lab :=
  let s := if es[0]? = some v then 1 else es.countP (fun e => decide (e < v))
  if s = 0 then none
  else match es[s - 1]?, es[s]? with
    | some lo, some hi => some (.bin lo hi)
    | _, _ => none

/-- `pd.qcut` of a column. Quantiles of strings are a `TypeError`. -/
def qcut (c : IdxCol) (q : Nat) : Except PyErr (List (Option Lab)) :=
  if c.dtype = .object then .error .typeError
  else
    let es := edges (c.vals.filterMap (fun (o : Option Lab) => o.bind numOf)) q
    .ok (c.vals.map (fun (o : Option Lab) => (o.bind numOf).bind (binOf es)))

/-- Types that do not start the binning, L172. -/
def plain (d : DType) : Bool := decide (d = .int64) || decide (d = .int32) || decide (d = .int8) || decide (d = .object)

/-- Whether column `c` is replaced once binning is started, L173-175: `dtype != int` and enough different values. -/
def replaced (q : Nat) (c : IdxCol) : Bool := decide (c.dtype ≠ .int64) && decide (q ≤ c.distinct)

/-- L171-176: the labels per index column. -/
def labels (idxs : List IdxCol) (q : Nat) : Except PyErr (List (String × List (Option Lab))) :=
  if idxs.any (fun c => !plain c.dtype) then
    idxs.mapM (fun (c : IdxCol) => if replaced q c then (qcut c q).map (fun v => (c.name, v)) else .ok (c.name, c.vals))
  else .ok (idxs.map (fun (c : IdxCol) => (c.name, c.vals)))

/-- The dictionary L186 over the index columns, `x` being changed on the way. -/
def idxLoop (t : Arg) (k : Metric) : Arg → List (String × List (Option Lab)) → Arg × Except PyErr (List (String × Score))
  | x, [] => (x, .ok [])
  | x, (nm, agg) :: rest =>
    match summaryScore x t k agg with
    | (x', .error e) => (x', .error e)
    | (x', .ok s) =>
      match idxLoop t k x' rest with
      | (x'', .error e) => (x'', .error e)
      | (x'', .ok out) => (x'', .ok ((nm, s) :: out))

/-- `scores_df[name] = …`, L187: a dictionary in insertion order. -/
def assign {V : Type} (d : List (String × V)) (k : String) (v : V) : List (String × V) :=
  if k ∈ d.map Prod.fst then d.map (fun e => if e.1 = k then (k, v) else e) else d ++ [(k, v)]

/-- The loop L179-187 over the metrics with their names. Concatenating no scores is a `ValueError`. -/
def metricLoop (t : Arg) (ls : List (String × List (Option Lab))) :
    Arg → List (String × List (String × Score)) → List (String × Metric) → Arg × Except PyErr (List (String × List (String × Score)))
  | x, acc, [] => (x, .ok acc)
  | x, acc, (nm, k) :: rest =>
    match idxLoop t k x ls with
    | (x', .error e) => (x', .error e)
    | (x', .ok []) => (x', .error .valueError)
    | (x', .ok (s :: ss)) => metricLoop t ls x' (assign acc nm (s :: ss)) rest

/-- What a call leaves behind: the column labels of the frame passed as `x`, and the result. -/
structure Out where
  xcols : Option (List String)
  res : Except PyErr (List (String × List (String × Score)))

/-- `summary_scores(x, t, metrics, idxs, mask, n_quantiles)`, L157-188. With a mask the products are new
objects, so that the caller's frame is not changed. -/
def summaryScores (x t : Arg) (metrics : List (String × Metric)) (idxs : Idxs) (mask : Option Mask) (q : Nat) : Out :=
  match checkIndexes (indexes x t mask) with
  | .error e => ⟨x.cols, .error e⟩
  | .ok () =>
    match mask with
    | none =>
      match labels idxs.cols q with
      | .error e => ⟨x.cols, .error e⟩
      | .ok ls => let r := metricLoop t ls x [] metrics; ⟨r.1.cols, r.2⟩
    | some k =>
      match maskMul x k with
      | .error e => ⟨x.cols, .error e⟩
      | .ok x' =>
        match maskMul t k with
        | .error e => ⟨x.cols, .error e⟩
        | .ok t' =>
          match labels idxs.cols q with
          | .error e => ⟨x.cols, .error e⟩
          | .ok ls => ⟨x.cols, (metricLoop t' ls x' [] metrics).2⟩

/-! Quantile forecasts. -/

/-- `x * mask[mask].values` for a forecast array of shape `(n, m, k)`, L168: the last two axes meet those of the mask. The resulting shape. -/
def maskShape3 (n m k : Nat) (mask : Mask) : Except PyErr (Nat × Nat × Nat) :=
  let n' := mask.index.length
  if (n' = m ∨ n' = 1 ∨ m = 1) ∧ (mask.m = k ∨ mask.m = 1 ∨ k = 1) then .ok (n, max m n', max k mask.m) else .error .valueError

/-- `err_alpha` of a cell, L71-73; the forecast is not missing. -/
def errAlpha (q : ℚ) (t : Cell) : Cell := t.map (fun y => q - y)

/-- `(err_alpha > 0).astype(int)`, L74: a comparison with NaN is false. -/
def indicator (e : Cell) : ℚ :=
  match e with
  | some v => if v > 0 then 1 else 0
  | none => 0

/-- `(I - alpha) * err_alpha`, L75. -/
def pinball (alpha : ℚ) (e : Cell) : Cell := e.map (fun v => (indicator e - alpha) * v)

/-- Reliability of one level for the group `l` and column `j`, L79. -/
def reliability (agg : List (Option Lab)) (q : Nat → Nat → ℚ) (t : Vals) (l : Lab) (j : Nat) : Cell :=
  mean ((members agg l).map (fun (i : Nat) => some (indicator (errAlpha (q i j) (t i j)))))

/-- Score of one level for the group `l` and column `j`, L78. -/
def quantileScore (agg : List (Option Lab)) (alpha : ℚ) (q : Nat → Nat → ℚ) (t : Vals) (l : Lab) (j : Nat) : Cell :=
  mean ((members agg l).map (fun (i : Nat) => pinball alpha (errAlpha (q i j) (t i j))))

end PyF.Summary
