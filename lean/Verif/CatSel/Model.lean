import Mathlib.Data.List.Dedup
import Mathlib.Data.List.ReduceOption
import Mathlib.Data.Int.Order.Basic

/-!
Model of `Formatter.auto_cat_feature_selection` (`pyforecaster/formatter.py` L407-414), the choice of the columns `cat_encoding` (L390-393) encodes when
none are named. The encoding itself (`pd.Categorical` of a frame, the encoder of the caller) is not modelled.
-/

namespace PyF.CatSel

variable {N V : Type} [DecidableEq V]

/-- `df.nunique()` of one column, L413: the number of different values, missing ones (`none`) not counted. -/
def nunique (c : List (Option V)) : ℕ := c.reduceOption.dedup.length

/-- `df.columns[df.nunique() <= max_num_class_cat]`, L413-414. The mask goes by position, so repeated names are judged one by one. -/
def autoCat (df : List (N × List (Option V))) (maxNum : ℤ) : List N :=
  (df.filter (fun p => decide ((nunique p.2 : ℤ) ≤ maxNum))).map Prod.fst

/-- The default of `max_num_class_cat`, L408. -/
def defaultMax : ℤ := 24

end PyF.CatSel
