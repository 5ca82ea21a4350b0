import Verif.Common
import Mathlib.Data.List.Sort
import Mathlib.Data.List.Dedup
import Mathlib.Order.Basic

/-!
Chunking, parallel map and memory reduction: pyforecaster/big_data_utils.py.

Simplifications: frames are a list of labels, an index and a list of rows; `Pool.starmap` and `ray` are an ordered map; the split points `np.linspace(..).astype(int)` are
exact (`⌊s N / n⌋`); the partition theorem also holds for any increasing points with the right ends, which covers rounding. Columns are integers of a given
width, floats of a given width, or others (object, unsigned, boolean, time: left alone); the rounding to 32 bit floats is a parameter.
-/

namespace PyF.BigData

open PyF

/-- `np.linspace(0, N, n_splits+1).astype(int)[s]`, L37, in exact arithmetic. -/
def point (N n s : Nat) : Nat := s * N / n

/-- `iloc[np.arange(a, b)]`, L40-44. -/
def seg {α : Type*} (xs : List α) (a b : Nat) : Except PyErr (List α) := takeRows xs (List.range' a (b - a))

/-- The loop of `array_split` along one axis, L38-46. -/
def splitLoop {α : Type*} (pts : Nat → Nat) (xs : List α) : List Nat → Except PyErr (List (List α))
  | [] => .ok []
  | s :: ss =>
    match seg xs (pts s) (pts (s + 1)) with
    | .error e => .error e
    | .ok p =>
      match splitLoop pts xs ss with
      | .error e => .error e
      | .ok ps => .ok (p :: ps)

/-- `array_split` of a list of rows (or columns), L28-46. -/
def arraySplit {α : Type*} (xs : List α) (n : Nat) : Except PyErr (List (List α)) := splitLoop (point xs.length n) xs (List.range n)

/-- A frame: column labels, index and rows. -/
structure Frame (C I α : Type) where
  cols : List C
  idx : List I
  rows : List (List α)

variable {C I α : Type}

/-- `array_split(df, n, axis=0)`, L44: the index is cut with the rows. -/
def split0 (df : Frame C I α) (n : Nat) : Except PyErr (List (Frame C I α)) :=
  match arraySplit (df.idx.zip df.rows) n with
  | .error e => .error e
  | .ok ps => .ok (ps.map (fun p => ⟨df.cols, p.map Prod.fst, p.map Prod.snd⟩))

/-- `df.iloc[:, a:b]`, L42. -/
def colSeg (df : Frame C I α) (a b : Nat) : Except PyErr (Frame C I α) :=
  match seg df.cols a b with
  | .error e => .error e
  | .ok cs =>
    match df.rows.mapM (fun r => seg r a b) with
    | .error e => .error e
    | .ok rs => .ok ⟨cs, df.idx, rs⟩

/-- `array_split(df, n, axis=1)`, L42. -/
def split1 (df : Frame C I α) (n : Nat) : Except PyErr (List (Frame C I α)) :=
  (List.range n).mapM (fun s => colSeg df (point df.cols.length n s) (point df.cols.length n (s + 1)))

/-- What the caller passes as `df`, L65-73. -/
inductive Src (C I α : Type)
  | frame (df : Frame C I α)
  | list (dfs : List (Frame C I α))
  | other

/-- The chunks, L64-73: the number of columns is compared with the number of chunks for both axes. -/
def chunks (src : Src C I α) (n : Nat) (axis1 : Bool) : Except PyErr (List (Frame C I α)) :=
  match src with
  | .frame df => if n < df.cols.length then (if axis1 then split1 df n else split0 df n) else .ok [df]
  | .list dfs => .ok dfs
  | .other => .error .typeError

/-- A two-dimensional array: number of columns and rows. -/
structure Arr (α : Type) where
  width : Nat
  rows : List (List α)

/-- The result of `fdf_parallel`: a labelled frame, a bare array, or the list of responses. -/
inductive Res (C I α β : Type)
  | frame (f : Frame C I α)
  | arr (a : Arr α)
  | list (l : List β)

/-- `np.unique`: sorted, without repetitions. -/
def unique [LinearOrder C] (l : List C) : List C := l.dedup.insertionSort (· ≤ ·)

/-- The new column labels without ray, L86 and L90; chunks of unequal width cannot be stacked. -/
def newCols [LinearOrder C] (dfs : List (Frame C I α)) (axis1 : Bool) (d0 : Frame C I α) : Except PyErr (List C) :=
  if axis1 then (if dfs.all (fun d => decide (d.cols.length = d0.cols.length)) then .ok (unique (dfs.flatMap Frame.cols)) else .error .valueError)
  else .ok (unique d0.cols)

/-- The branch without ray, L82-100. `f` acts on arrays; only `dfs[0]` is mapped (L96). -/
def noRay [LinearOrder C] {β : Type} (f : Arr α → Except PyErr (Arr α)) (dfs : List (Frame C I α)) (axis1 : Bool) : Except PyErr (Res C I α β) :=
  match dfs with
  | [] => .error .indexError
  | d0 :: _ =>
    match newCols dfs axis1 d0 with
    | .error e => .error e
    | .ok cols =>
      match f ⟨d0.cols.length, d0.rows⟩ with
      | .error e => .error e
      | .ok res =>
        if (res.rows.length, res.width) = (if axis1 then (d0.rows.length, (dfs.map (fun d => d.cols.length)).sum) else ((dfs.map (fun d => d.rows.length)).sum, d0.cols.length)) then
          (if cols.length = res.width then .ok (.frame ⟨cols, if axis1 then d0.idx else dfs.flatMap Frame.idx, res.rows⟩) else .error .valueError)
        else .ok (.arr res)

/-- The branch with ray and `recast=False`, L102-109 and L122: the responses in the order of the chunks. -/
def rayList {β : Type} (g : Frame C I α → Except PyErr β) (dfs : List (Frame C I α)) : Except PyErr (List β) := dfs.mapM g

/-- `pd.concat(responses, axis)`, L112, for responses with the same columns (axis 0) or the same index (axis 1). -/
def concat (axis1 : Bool) (l : List (Frame C I α)) : Except PyErr (Frame C I α) :=
  match l with
  | [] => .error .valueError
  | d :: _ =>
    if axis1 then .ok ⟨l.flatMap Frame.cols, d.idx, (List.range d.rows.length).map (fun i => l.flatMap (fun e => e.rows.getD i []))⟩
    else .ok ⟨d.cols, l.flatMap Frame.idx, l.flatMap Frame.rows⟩

/-- `test_df.values`, L75-77. -/
def testArr (d : Frame C I α) (n : Nat) (axis1 : Bool) : Arr α := if axis1 then ⟨min n d.cols.length, d.rows.map (·.take n)⟩ else ⟨d.cols.length, d.rows.take n⟩

/-- `fdf_parallel`, L49-125, for an `f` acting on arrays as `fa` and on frames as `g`: without ray only if the array version does not raise on the test slice. -/
def fdfParallel [LinearOrder C] (fa : Arr α → Except PyErr (Arr α)) (g : Frame C I α → Except PyErr (Frame C I α)) (src : Src C I α) (n : Nat) (axis1 useRay recast : Bool) :
    Except PyErr (Res C I α (Frame C I α)) :=
  match chunks src n axis1 with
  | .error e => .error e
  | .ok [] => .error .indexError
  | .ok (d :: ds) =>
    if (fa (testArr d n axis1)).isOk && !useRay then noRay fa (d :: ds) axis1
    else
      match rayList g (d :: ds) with
      | .error e => .error e
      | .ok rs =>
        if recast then
          (match concat axis1 rs with
          | .error e => .error e
          | .ok r => .ok (.frame r))
        else .ok (.list rs)

/-- scenarios_generator.py L141-150 with pre-fitted trees: a tree per row, in parallel chunks (`recast=False`, results unrolled) or sequentially. `cpu` is `cpu_count()`. -/
def predTrees {T : Type} (tree : I → List α → T) (preds : Frame C I α) (cpu : Nat) (parallel : Bool) : Except PyErr (List T) :=
  if parallel && decide (1 < preds.rows.length) then
    match chunks (.frame preds) (min (cpu - 1) preds.rows.length) false with
    | .error e => .error e
    | .ok [] => .error .indexError
    | .ok (d :: ds) =>
      match rayList (fun c => .ok ((c.idx.zip c.rows).map (fun p => tree p.1 p.2))) (d :: ds) with
      | .error e => .error e
      | .ok rs => .ok rs.flatten
  else .ok ((preds.idx.zip preds.rows).map (fun p => tree p.1 p.2))

/-- formatter.py L186-195: the folds `dfs[n_cpu * i:n_cpu * (i + 1)]` for `i < ceil(len(dfs) / n_cpu)`. -/
def cpuFolds {D : Type} (dfs : List D) (cpu : Nat) : List (List D) := (List.range ((dfs.length + cpu - 1) / cpu)).map (fun i => (dfs.drop (cpu * i)).take cpu)

/-- big_data_utils.py: `np.iinfo(bits).min < c_min and c_max < np.iinfo(bits).max`, L134-140: strict on both sides. -/
def fits (bits : Nat) (v : Int) : Bool := decide (-(2 : Int) ^ (bits - 1) < v) && decide (v < (2 : Int) ^ (bits - 1) - 1)

/-- `astype` to a signed integer of so many bits: two's complement wrap-around. -/
def wrap (bits : Nat) (v : Int) : Int := (v + 2 ^ (bits - 1)) % 2 ^ bits - 2 ^ (bits - 1)

/-- The integer branch, L133-141, on a column of `bits` bits: the bounds are compared with the least and the greatest value; an empty column has neither. -/
def reduceInt (bits : Nat) (vs : List Int) : Nat × List Int :=
  match vs with
  | [] => (bits, [])
  | _ :: _ =>
    if vs.all (fits 8) then (8, vs.map (wrap 8))
    else if vs.all (fits 16) then (16, vs.map (wrap 16))
    else if vs.all (fits 32) then (32, vs.map (wrap 32))
    else if vs.all (fits 64) then (64, vs.map (wrap 64))
    else (bits, vs)

/-- A float entry: NaN, an infinity, or a finite value. -/
inductive Fl (R : Type)
  | nan
  | inf (positive : Bool)
  | fin (v : R)

/-- The entry is outside the range of 32 bit floats. -/
def Fl.bad {R : Type} (small : R → Bool) : Fl R → Bool
  | .nan => false
  | .inf _ => true
  | .fin x => !small x

/-- The entry is seen by `min` and `max` of a Series. -/
def Fl.seen {R : Type} : Fl R → Bool
  | .nan => false
  | .inf _ => true
  | .fin _ => true

/-- `astype(np.float32)` of one entry. -/
def Fl.cast {R : Type} (r32 : R → R) : Fl R → Fl R
  | .nan => .nan
  | .inf p => .inf p
  | .fin x => .fin (r32 x)

/-- The float branch, L142-148, for a Series: NaN is skipped by `min` and `max`, and both are NaN when nothing is left; the 32 bit type is used when all
values are inside its range (`small`). -/
def reduceFloat {R : Type} (small : R → Bool) (r32 : R → R) (vs : List (Fl R)) : Nat × List (Fl R) :=
  if vs.any Fl.seen && !vs.any (Fl.bad small) then (32, vs.map (Fl.cast r32)) else (64, vs)

/-- Contents of a column. -/
inductive Col (R : Type)
  | ints (bits : Nat) (vs : List Int)
  | floats (bits : Nat) (vs : List (Fl R))
  | other (tag : Nat)

/-- `reduce_mem_usage_series`, L128-149; object and remaining types are left alone. -/
def reduceCol {R : Type} (small : R → Bool) (r32 : R → R) : Col R → Col R
  | .ints b vs => let r := reduceInt b vs; .ints r.1 r.2
  | .floats _ vs => let r := reduceFloat small r32 vs; .floats r.1 r.2
  | .other t => .other t

/-- `reduce_mem_usage(df, parallel=False)`, L181-183: columns are replaced in the frame of the caller, which is also returned: (frame of the caller afterwards, result). -/
def reduceSeq {R : Type} (small : R → Bool) (r32 : R → R) (cols : List (C × Col R)) : List (C × Col R) × List (C × Col R) :=
  let new := cols.map (fun p => (p.1, reduceCol small r32 p.2))
  (new, new)

end PyF.BigData
