import Verif.Common
import Verif.Transform.Model

/-!
Model of `Formatter.prune_dataset_at_stepahead`, `pyforecaster/formatter.py` L493-526. Durations are whole nanoseconds;
`%` of two `Timedelta`s is the floor remainder. A data frame is a list of named columns with distinct names; column
contents are opaque.
-/

namespace PyF.Prune
open PyF.Names PyF.Transform

variable {C : Type}

/-- The `method` argument with the two arguments only 'periodic' reads, L506-514. -/
inductive Method
  | periodic (period tol : Int)
  | upTo
  | other

/-- `tt.metadata.iloc[target_col_num]` for every target transformer, L498-500; `IndexError` beyond the last row. -/
def targetRows (k : Nat) : List (List Meta) → Except PyErr (List Meta)
  | [] => .ok []
  | ms :: rest =>
    match ms[k]? with
    | none => .error .indexError
    | some m =>
      match targetRows k rest with
      | .error e => .error e
      | .ok r => .ok (m :: r)

/-- The column `keep` after the method, L506-514. -/
def keep0 (meth : Method) (tgt m : Meta) : Bool :=
  match meth with
  | .periodic p tol => decide ((tgt.start - m.start) % p ≤ tol) || decide ((tgt.stop - m.stop) % p ≤ tol)
  | .upTo => decide (m.stop ≤ tgt.stop)
  | .other => true

/-- `metadata['lag'].isin(np.arange(n))`, L517. -/
def lagIn (n : Int) (m : Meta) : Bool :=
  match m.lag with
  | none => false
  | some l => decide (0 ≤ l) && decide (l < n)

/-- The column `keep` after all rules, L506-523. -/
def keepRow (meth : Method) (nLags secs : Int) (tgt m : Meta) : Bool :=
  let k1 := if nLags > 0 then keep0 meth tgt m || lagIn nLags m else keep0 meth tgt m
  let close := decide (m.stop ≤ secs * 1000000000) || decide (m.stop ≤ secs * 1000000000)
  if secs > 0 then k1 || (close && decide (m.stop ≤ tgt.stop)) else k1

/-- `df[c]`. -/
def getCol (df : List (Str × C)) (c : Str) : Option (Str × C) := df.find? (fun p => p.1 = c)

/-- `df[features]`, L525-526; `KeyError` for a missing column. -/
def select (df : List (Str × C)) : List Str → Except PyErr (List (Str × C))
  | [] => .ok []
  | c :: cs =>
    match getCol df c with
    | none => .error .keyError
    | some p =>
      match select df cs with
      | .error e => .error e
      | .ok r => .ok (p :: r)

/-- `prune_dataset_at_stepahead`, L493-526. `targets` and `feats`: the metadata tables of the target transformers and
of the transformers. `IndexError` from L502 without target transformers, `ValueError` from `pd.concat([])` L505. -/
def prune (df : List (Str × C)) (targets feats : List (List Meta)) (k : Nat) (metaFeatures : List Str) (meth : Method)
    (nLags secs : Int) : Except PyErr (List (Str × C)) :=
  match targetRows k targets with
  | .error e => .error e
  | .ok [] => .error .indexError
  | .ok (tgt :: _) =>
    if feats = [] then .error .valueError
    else select df (((feats.flatten.filter (keepRow meth nLags secs tgt)).map Meta.col) ++ metaFeatures)

end PyF.Prune
