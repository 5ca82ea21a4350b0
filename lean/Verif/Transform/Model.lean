import Verif.Common
import Verif.Names.Model
import Mathlib.Algebra.Order.Field.Rat
import Mathlib.Data.Rat.Defs

/-!
Model of `Transformer` (`pyforecaster/formatter.py` L657-848), non-binned branch, and of the loop over the input
transformers in `Formatter._transform` (L231-238), on a frame with a regular time grid.

Simplifications: row `t` of a frame stands for the time stamp `t·dt` (durations are whole nanoseconds), so the median
time difference of L737 is `dt` itself; values are exact rationals and NaN is `none`; an aggregation function is an
arbitrary map from the list of non-missing observations to a value or NaN; the columns of the input frame are assumed
to have unique names.
-/

namespace PyF.Transform
open PyF.Names

/-- A column: one entry per row, `none` for NaN. -/
abbrev Col := List (Option ℚ)

/-- The value of a column at an arbitrary (possibly out of frame) row; NaN outside. -/
def sample (c : Col) (i : Int) : Option ℚ := if 0 ≤ i then (c[i.toNat]?).join else none

/-- `Series.shift(l)`: row `t` gets row `t - l`, NaN outside. -/
def shift (l : Int) (c : Col) : Col := (List.range c.length).map (fun (t : Nat) => sample c ((t : Int) - l))

/-- An aggregation function with its name (`get_fun_name`, L897-902). -/
structure Fn where
  name : Str
  ev : List ℚ → Option ℚ

/-- The entries that `rolling(aggFreq)` looks at for row `t`: pandas' time based window `(t·dt - aggFreq, t·dt]`,
L763. -/
def window (dt aggFreq : Nat) (c : Col) (t : Nat) : List (Option ℚ) :=
  ((List.range (t + 1)).filter (fun s => decide ((t - s) * dt < aggFreq))).map (fun (s : Nat) => sample c (s : Int))

/-- One row of `rolling(aggFreq, min_periods).agg(f)`, L763: NaN with fewer than `minPeriods` observations. -/
def rollAt (dt aggFreq minPeriods : Nat) (f : List ℚ → Option ℚ) (c : Col) (t : Nat) : Option ℚ :=
  let obs := (window dt aggFreq c t).filterMap id
  if obs.length < minPeriods then none else f obs

/-- `rolling(aggFreq, min_periods).agg(f)`, L763. -/
def rolling (dt aggFreq minPeriods : Nat) (f : List ℚ → Option ℚ) (c : Col) : Col :=
  (List.range c.length).map (rollAt dt aggFreq minPeriods f c)

/-- The attribute `agg_freq`, L681, L739-742: absent, a number of steps, a duration given as text, a `Timedelta`. -/
inductive Agg
  | unset
  | steps (k : Nat)
  | text (txt : Str) (ns : Nat)
  | td (ns : Nat)

/-- L739-742: an absent `agg_freq` becomes the sampling time, an integer is multiplied by it; the attribute keeps the
result. -/
def Agg.resolve (dt : Nat) : Agg → Agg
  | .unset => .td dt
  | .steps k => .td (k * dt)
  | a => a

/-- The duration of a resolved `agg_freq`. -/
def Agg.ns : Agg → Nat
  | .unset => 0
  | .steps _ => 0
  | .text _ v => v
  | .td v => v

/-- `hr_agg_freq`, L759. -/
def Agg.label : Agg → Str
  | .text txt _ => txt
  | a => hrTimedelta false ((a.ns / 1000000000 : Nat) : Int)

/-- The attributes of a `Transformer` that the non-binned branch reads, L676-689. `functions = []` stands for `None`
(L756 tests truth), `lags = none` for `None`. -/
structure Transformer where
  names : List Str
  functions : List Fn
  agg : Agg
  lags : Option (List Int)
  relative : Bool
  dtArg : Option Nat

/-- A data frame on a regular grid with step `dt`. -/
structure Frame where
  dt : Nat
  cols : List (Str × Col)

/-- One row of `Transformer.metadata`, L813-843. -/
structure Meta where
  col : Str
  lag : Option Int
  fn : Str
  start : Int
  stop : Int
  var : Str

/-- `agg_steps = int(Timedelta(agg_freq) / dt)`, L751. -/
def aggSteps (dt : Nat) (a : Agg) : Nat := a.ns / dt

/-- The multiplier from lags to `lag_steps`, L802. -/
def lagMult (tr : Transformer) (steps : Nat) : Int := if tr.relative then (steps : Int) else 1

/-- The columns before lagging, L754-764. -/
def baseCols (tr : Transformer) (a : Agg) (dt : Nat) (name : Str) (c : Col) : List (Str × Col) :=
  match tr.functions with
  | [] => [(name, c)]
  | fs => fs.map (fun f => (aggName name a.label f.name, rolling dt a.ns (aggSteps dt a) f.ev c))

/-- The columns generated for one variable, L734-811. -/
def genCols (tr : Transformer) (a : Agg) (dt : Nat) (name : Str) (c : Col) : List (Str × Col) :=
  match tr.lags with
  | none => baseCols tr a dt name c
  | some ls => ls.flatMap (fun l => (baseCols tr a dt name c).map
      (fun b => (lagName b.1 l, shift (l * lagMult tr (aggSteps dt a)) b.2)))

/-- `function_names`, L755-757. -/
def fnNames (tr : Transformer) : List Str :=
  match tr.functions with
  | [] => ["none".toList]
  | fs => fs.map Fn.name

/-- `trans_names` before lagging, L754-760. -/
def baseNames (tr : Transformer) (a : Agg) (name : Str) : List Str :=
  match tr.functions with
  | [] => [name]
  | fs => fs.map (fun f => aggName name a.label f.name)

/-- `trans_names` for one variable, L799-801: `product(lags, trans_names)`. -/
def transNames (tr : Transformer) (a : Agg) (name : Str) : List Str :=
  match tr.lags with
  | none => baseNames tr a name
  | some ls => ls.flatMap (fun l => (baseNames tr a name).map (fun b => lagName b l))

/-- `lags_and_fun` and `lags_aux`, L814-815: `product(lags, function_names)`. -/
def metaRows (tr : Transformer) : List (Option Int × Int × Str) :=
  match tr.lags with
  | none => (fnNames tr).map (fun f => (none, 0, f))
  | some ls => ls.flatMap (fun l => (fnNames tr).map (fun f => (some l, l, f)))

/-- The metadata rows for one variable, L813-823, indexed by `trans_names`. -/
def genMeta (tr : Transformer) (a : Agg) (dt : Nat) (name : Str) : List Meta :=
  let steps := aggSteps dt a
  let spacing : Int := if tr.relative then (dt : Int) * steps else dt
  (transNames tr a name).zipWith (fun nm r =>
    { col := nm, lag := r.1, fn := r.2.2, start := - (spacing * r.2.1) - steps * dt + dt,
      stop := - (spacing * r.2.1) + dt, var := name }) (metaRows tr)

/-- `x[name]`. -/
def Frame.get (F : Frame) (nm : Str) : Col := ((F.cols.find? (fun p => p.1 = nm)).map Prod.snd).getD []

/-- Sampling time, L737. -/
def samplingTime (tr : Transformer) (F : Frame) : Nat := tr.dtArg.getD F.dt

/-- `Transformer.transform(x, augment)`, L711-848: the transformer with its updated `agg_freq`, the frame, the
metadata. `AssertionError` for an unknown variable (L726), `ValueError` from `pd.concat([])` for an empty lag array
(L805). -/
def transform (tr : Transformer) (augment : Bool) (F : Frame) : Except PyErr (Transformer × Frame × List Meta) :=
  if tr.names.all (fun nm => F.cols.any (fun p => p.1 = nm)) then
    if tr.names ≠ [] ∧ tr.lags = some [] then .error .valueError
    else
      let dt := samplingTime tr F
      let a := if tr.names = [] then tr.agg else tr.agg.resolve dt
      let gen := tr.names.flatMap (fun nm => genCols tr a dt nm (F.get nm))
      .ok ({ tr with agg := a },
        { dt := F.dt, cols := (if augment then F.cols else []) ++ gen },
        tr.names.flatMap (fun nm => genMeta tr a dt nm))
  else .error .assertionError

/-- The loop over the input transformers, L236-238: each one augments the frame the next one sees. -/
def applyAll : List Transformer → Frame → Except PyErr (List Transformer × Frame)
  | [], F => .ok ([], F)
  | tr :: trs, F =>
    match transform tr true F with
    | .error e => .error e
    | .ok (tr', F', _) =>
      match applyAll trs F' with
      | .error e => .error e
      | .ok (trs', F'') => .ok (tr' :: trs', F'')

/-- `_transform_` mapped over the transformers, L209-211 and L234: every transformer sees the same frame; the first
exception in order is the one raised. -/
def mapPar : List Transformer → Frame → Except PyErr (List Transformer × List (Str × Col))
  | [], _ => .ok ([], [])
  | tr :: trs, F =>
    match transform tr false F with
    | .error e => .error e
    | .ok (tr', F', _) =>
      match mapPar trs F with
      | .error e => .error e
      | .ok (trs', cols) => .ok (tr' :: trs', F'.cols ++ cols)

/-- The `parallel=True` branch, L232-235. -/
def applyPar (trs : List Transformer) (F : Frame) : Except PyErr (List Transformer × Frame) :=
  match mapPar trs F with
  | .error e => .error e
  | .ok (trs', cols) => .ok (trs', { dt := F.dt, cols := F.cols ++ cols })

end PyF.Transform
