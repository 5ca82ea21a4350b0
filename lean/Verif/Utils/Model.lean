import Verif.Common
import Mathlib.Data.List.Dedup
import Mathlib.Data.Rat.Defs
import Mathlib.Tactic.Ring
import Mathlib.Tactic.Linarith

/-!
Model of the conversions between three-dimensional arrays and frames with two-level columns, `pyforecaster/utilities.py` L8-21.

An array is a function of three positions with explicit sizes. A frame keeps its row count, the labels of its columns in order, the sizes
of the two column levels as pandas stores them (`columns.levshape`; selecting columns does not shrink the stored levels) and its values by
position. Values are exact rationals.
-/

namespace PyF.Utils
open PyF

/-- A three-dimensional array with its sizes. -/
structure Tensor where
  d0 : Nat
  d1 : Nat
  d2 : Nat
  val : Nat → Nat → Nat → ℚ

/-- A frame with two-level columns. -/
structure Frame (O I : Type) where
  n : Nat
  cols : List (O × I)
  lev0 : Nat
  lev1 : Nat
  val : Nat → Nat → ℚ

section
variable {O I : Type} [DecidableEq O] [DecidableEq I]

/-- Assignment `df[si] = …` to a dictionary kept in insertion order (L11): a key already present keeps its place and gets the new value. -/
def assign {V : Type} (d : List (O × V)) (k : O) (v : V) : List (O × V) :=
  if k ∈ d.map Prod.fst then d.map (fun e => if e.1 = k then (k, v) else e) else d ++ [(k, v)]

/-- The pairs of the loop `zip(range(x.shape[2]), second_index)`, L10. -/
def pairs (d2 : Nat) (second : List O) : List (Nat × O) := (List.range d2).zip second

/-- The dictionary after the loop L9-11: per key of the second index the position of the slice `x[:, :, i]` it holds. -/
def slices (d2 : Nat) (second : List O) : List (O × Nat) := (pairs d2 second).foldl (fun d p => assign d p.2 p.1) []

/-- `from_tensor_to_pdmultiindex(x, index, first_index, second_index)`, L8-12; `rows` is the length of `index`. A slice whose shape is not
that of the labels is a `ValueError` and so is the concatenation of no frames. The concatenation has, in the order of the keys, the columns of
each slice; its levels are the distinct keys and the distinct labels of the first index. -/
def fromTensor (x : Tensor) (rows : Nat) (first : List I) (second : List O) : Except PyErr (Frame O I) :=
  let sl := slices x.d2 second
  if sl = [] then .error .valueError
  else if rows ≠ x.d0 ∨ first.length ≠ x.d1 then .error .valueError
  else .ok
    { n := rows
      cols := sl.flatMap (fun e => first.map (fun f => (e.1, f)))
      lev0 := sl.length
      lev1 := first.dedup.length
      val := fun r c => x.val r (c % x.d1) ((sl[c / x.d1]?.map Prod.snd).getD 0) }

/-- `df.values.reshape(-1, c0, c1)`, L19, L21: the entries are read row after row; their number has to be a multiple of the block size, which
may not be zero. -/
def reshape (f : Frame O I) : Except PyErr Tensor :=
  let w := f.cols.length
  let b := f.lev0 * f.lev1
  if b = 0 then .error .valueError
  else if (f.n * w) % b ≠ 0 then .error .valueError
  else .ok
    { d0 := f.n * w / b
      d1 := f.lev0
      d2 := f.lev1
      val := fun r p q => let k := (r * f.lev0 + p) * f.lev1 + q; f.val (k / w) (k % w) }

/-- `np.swapaxes(·, 1, 2)`, L21. -/
def swap (x : Tensor) : Tensor := { d0 := x.d0, d1 := x.d2, d2 := x.d1, val := fun r p q => x.val r q p }

/-- `convert_multiindex_pandas_to_tensor(df, zero_first)` for a frame with two-level columns, L14-21. -/
def toTensor (f : Frame O I) (zeroFirst : Bool) : Except PyErr Tensor :=
  match reshape f with
  | .error e => .error e
  | .ok t => .ok (if zeroFirst then t else swap t)

/-- Selection of columns by position, `df.loc[:, …]` / `df.iloc[:, ps]`: the stored levels stay. -/
def select (f : Frame O I) (ps : List Nat) : Frame O I :=
  { n := f.n
    cols := ps.filterMap (fun (p : Nat) => f.cols[p]?)
    lev0 := f.lev0
    lev1 := f.lev1
    val := fun r c => f.val r (ps.getD c 0) }

end

end PyF.Utils
