import Verif.Common
import Mathlib.Data.List.Sort
import Mathlib.Data.List.Dedup

/-!
Model of the `encode_categorical` decorator, `pyforecaster/forecaster.py` L26-52.

`κ` is the (linearly ordered) type of category strings, `N` the type of column names. A frame is the list of
its columns; column names are assumed to be distinct, as pandas needs for `x[column] = ...`.
-/

namespace PyF.Encode
open PyF

/-- A column is either of object/category dtype or numeric. -/
inductive Col (κ : Type)
  | obj (v : List κ)
  | num (v : List Nat)
  deriving DecidableEq

/-- The attribute `self._le` (L29-30): encoders by column name, each reduced to `classes_`. -/
abbrev Encoders (N κ : Type) := List (N × List κ)

variable {N κ : Type} [DecidableEq N] [LinearOrder κ]

/-- `LabelEncoder.fit`: `classes_` is `np.unique` of the values, i.e. sorted and duplicate free. -/
def fitClasses (v : List κ) : List κ := v.dedup.insertionSort (· ≤ ·)

/-- `LabelEncoder.transform` on known values: the position in `classes_`. -/
def codes (classes v : List κ) : List Nat := v.map (fun s => classes.idxOf s)

/-- One iteration of the loop of L33-47 on one column. -/
def encodeCol (le : Encoders N κ) (name : N) : Col κ → Except PyErr (Encoders N κ × Col κ)
  | .num v => .ok (le, .num v)                             -- not selected by `select_dtypes`
  | .obj v =>
    match le.lookup name with
    | none =>                                              -- L34-38
      let cl := fitClasses v
      .ok ((name, cl) :: le, .num (codes cl v))
    | some cl =>                                           -- L39-47
      if v.all (fun s => decide (s ∈ cl)) then .ok (le, .num (codes cl v))
      else .error .valueError

/-- Result of a wrapped call as far as encoding is concerned: the encoders afterwards, the caller's frame
afterwards (it is modified in place) and the exception, if any. -/
structure Outcome (N κ : Type) where
  le : Encoders N κ
  frame : List (N × Col κ)
  err : Option PyErr

/-- The loop L33-47 over the columns, in place, stopping at the first exception. -/
def encode (le : Encoders N κ) : List (N × Col κ) → Outcome N κ
  | [] => ⟨le, [], none⟩
  | (n, c) :: rest =>
    match encodeCol le n c with
    | .error e => ⟨le, (n, c) :: rest, some e⟩
    | .ok (le', c') =>
      let o := encode le' rest
      ⟨o.le, (n, c') :: o.frame, o.err⟩

/-- The encoders after a history of wrapped calls (`fit`, `predict`, ... in any order, also failing ones). -/
def history (le : Encoders N κ) : List (List (N × Col κ)) → Encoders N κ
  | [] => le
  | f :: fs => history (encode le f).le fs

end PyF.Encode
