import Verif.Common
import Verif.Normalize.Model
import Mathlib.Data.Int.Notation

/-!
The feature side of normalisation, `add_target_normalizer`, `get_time_lims` and `_normalize_timedelta_freq`: pyforecaster/formatter.py L22-36, L132-154, L282-352, L579-596.

Simplifications: as in `Verif.Normalize` (an expression is a function of the normaliser values of the row and of the value; exact rationals without NaN); normaliser values are those of
the frame passed in, which is right as long as no normaliser column is itself a transformed feature. Times are whole seconds.
-/

namespace PyF.FmtNorm

open PyF PyF.Names PyF.Normalize

variable {N : Type}

/-- One transformer's metadata: feature column and the `name` it derives from. -/
abbrev Meta := List (Str × Str)

/-- `(tr.metadata['name'].isin([target_to_norm])).index`, L327: the index of the mask, not of the rows selected by it. -/
def nrColumns (target : Str) (m : Meta) : List Str := (m.map (fun p => (p.1, decide (p.2 = target)))).map Prod.fst

/-- Feature columns assigned, in order, L324-329. -/
def featurePasses (targets : List Str) (ms : List Meta) : List Str := targets.dedup.flatMap (fun t => ms.flatMap (nrColumns t))

/-- The target side, L311-321; nothing without a target. -/
def normTarget (s : Setting N) (g : N → ℚ → ℚ) (y : Option Frame) : Except PyErr (Option Frame) :=
  match y with
  | none => .ok none
  | some y => (inner s g y).map some

/-- `normalize` on both sides, L297-332: `names` are the normaliser columns; `y` is `none` for `return_target=False`. -/
def normalizeBoth (s : Setting N) (names : List Str) (ms : List Meta) (f : Option (N → ℚ → ℚ)) (x : Frame) (y : Option Frame) : Except PyErr (Option Frame × Frame) :=
  match s.norm with
  | none => .ok (y, x)
  | some g0 =>
    if names.all (fun n => x.any (fun p => p.1 = n)) then
      match normTarget s (f.getD g0) y with
      | .error e => .error e
      | .ok y' =>
        match assignAll (f.getD g0) s.rows (featurePasses s.targetNames ms) x with
        | .error e => .error e
        | .ok x' => .ok (y', x')
    else .error .keyError

/-- `denormalize`, L346-352; the features are a copy. -/
def denormalizeBoth (s : Setting N) (names : List Str) (ms : List Meta) (x y : Frame) : Except PyErr Frame :=
  match s.denorm with
  | none => .ok y
  | some d =>
    match normalizeBoth s names ms (some d) x (some y) with
    | .error e => .error e
    | .ok (y', _) => .ok (y'.getD [])

/-! add_target_normalizer -/

/-- The `lags` argument: absent, a number, a list, a numpy array. -/
inductive Lags where
  | none
  | scalar (l : ℤ)
  | list (l : List ℤ)
  | array (l : List ℤ)

/-- A normaliser, by its name, its target and its lags. -/
structure Normalizer where
  name : Str
  target : Str
  lags : Option (List ℤ)

/-- `lags = [lags]` for a number, L137-138. -/
def Lags.wrap : Lags → Lags
  | .scalar l => .list [l]
  | l => l

/-- L147-149: the checks on the lags. `list > 0` is a TypeError. -/
def checkLags : Lags → Except PyErr (Option (List ℤ))
  | .none => .ok none
  | .scalar _ => .error .typeError
  | .list l => if l.length ≠ 1 then .error .assertionError else .error .typeError
  | .array l => if l.length ≠ 1 then .error .assertionError else if l.all (fun a => decide (0 < a)) then .ok (some l) else .error .assertionError

/-- `add_target_normalizer`, L132-154: the list of normalisers afterwards. -/
def addNormalizer (old : List Normalizer) (targets : List Str) (lags : Lags) (name : Str) : Except PyErr (List Normalizer) :=
  if old.any (fun n => n.name = name) then .ok old
  else
    match targets with
    | [t] => (checkLags lags.wrap).map (fun l => old ++ [⟨name, t, l⟩])
    | _ => .error .assertionError

/-! get_time_lims -/

/-- A metadata row: name of the variable, `start_time` and `end_time`. -/
structure Win where
  name : Str
  start : ℤ
  stop : ℤ

/-- A transformer: its metadata if it was used, and the metadata a simulation gives. -/
structure Tr where
  «meta» : Option (List Win)
  sim : List Win

/-- `groupby('name').min()['start_time']` over one or more tables. -/
def minStart (n : Str) (ws : List Win) : Option ℤ := ((ws.filter (fun w => w.name = n)).map Win.start).min?
/-- `groupby('name').max()['end_time']`. -/
def maxStop (n : Str) (ws : List Win) : Option ℤ := ((ws.filter (fun w => w.name = n)).map Win.stop).max?

/-- `_simulate_transform()` without a frame, L358-367: needs `dt`. -/
def simulate (hasDt : Bool) (ts : List Tr) : Except PyErr (List Tr) :=
  if hasDt ∨ ts = [] then .ok (ts.map (fun t => { t with «meta» := some t.sim })) else .error .assertionError

/-- Tables of the transformers; `None.groupby` is an AttributeError and an empty `concat` a ValueError. -/
def tables (ts : List Tr) : Except PyErr (List Win) :=
  if ts = [] then .error .valueError
  else
    match ts.mapM Tr.meta with
    | none => .error .attributeError
    | some ms => .ok ms.flatten

/-- The metadata `get_time_lims` reads, L581-583. -/
def timeTables (hasDt : Bool) (trs targetTrs : List Tr) (includeTarget : Bool) : Except PyErr (List Win) :=
  if trs.any (fun t => t.meta.isNone) then
    match simulate hasDt trs, simulate hasDt targetTrs with
    | .ok a, .ok b => tables (if includeTarget then a ++ b else a)
    | _, _ => .error .assertionError
  else tables (if includeTarget then trs ++ targetTrs else trs)

/-- `get_time_lims(extremes=False)`, L585-593: the limits of a name. -/
def timeLims (ws : List Win) (n : Str) : Option (ℤ × ℤ) :=
  match minStart n ws, maxStop n ws with
  | some a, some b => some (a, b)
  | _, _ => none

/-- `get_time_lims(extremes=True)`, L594-595: over the limits of all names. -/
def extremes (ws : List Win) : Option (ℤ × ℤ) :=
  match ((ws.map Win.name).filterMap (fun n => minStart n ws)).min?, ((ws.map Win.name).filterMap (fun n => maxStop n ws)).max? with
  | some a, some b => some (a, b)
  | _, _ => none

/-! Frequency strings -/

/-- `normalized.replace(old, new)` for one character. -/
def replaceChar (o : Char) (new s : List Char) : List Char := s.flatMap (fun c => if c = o then new else [c])

/-- The table, L25-32. -/
def freqTable : List (Char × List Char) := [('H', ['h']), ('T', ['m', 'i', 'n']), ('S', ['s']), ('L', ['m', 's']), ('U', ['u', 's']), ('N', ['n', 's'])]

/-- `_normalize_timedelta_freq` of a string, L33-36. -/
def normFreq (s : List Char) : List Char := freqTable.foldl (fun a p => replaceChar p.1 p.2 a) s

end PyF.FmtNorm
