import Verif.Common
import Mathlib.Data.Matrix.ColumnRowPartitioned
import Mathlib.LinearAlgebra.Matrix.NonsingularInverse
import Mathlib.Data.Real.Basic

/-!
Model of hierarchical reconciliation, `pyforecaster/reconciliation/reconciliation.py`.

`N` is the type of series names, `T` of target names (steps). A hierarchy is the dictionary aggregate ↦ children. Frames are modelled row by row: a row of the base
forecasts is a function from series names to numbers, together with the list of columns of the frame. Base forecasters and covariance estimators are parameters.
Arrays mixing strings and integers (which numpy converts to strings) are not modelled.
-/

namespace PyF.Recon
open PyF Matrix

variable {N T : Type} [DecidableEq N] [DecidableEq T]

abbrev Hier (N : Type) := List (N × List N)

def keys (h : Hier N) : List N := h.map (·.1)

/-- The loop of `unroll_subdict`, L64-71: sublists of the children that are keys, the other children themselves. -/
def gather (isKey : N → Bool) (g : N → Except PyErr (List N)) : List N → Except PyErr (List N)
  | [] => .ok []
  | i :: is =>
    match (if isKey i then g i else .ok [i]) with
    | .error e => .error e
    | .ok l =>
      match gather isKey g is with
      | .error e => .error e
      | .ok r => .ok (l ++ r)

/-- `unroll_subdict`, L62-71. The fuel is the recursion limit (`RecursionError` is a `RuntimeError`); `np.hstack([])` is a `ValueError`. -/
def unrollSub (h : Hier N) : Nat → N → Except PyErr (List N)
  | 0, _ => .error .runtimeError
  | f + 1, k =>
    match h.lookup k with
    | none => .error .keyError
    | some [] => .error .valueError
    | some l => gather (fun (i : N) => decide (i ∈ keys h)) (unrollSub h f) l

/-- `unroll_dict`, L73-78: the unrolled lists in the order of the keys. -/
def unrollDict (h : Hier N) (f : Nat) : Except PyErr (List (List N)) := (keys h).mapM (unrollSub h f)

/-- The loop of `explore_hierarchy`, L55-58, as the list of assignments in order (later ones overwrite). -/
def exploreList (isKey : N → Bool) (g : N → Except PyErr (List (N × Nat))) (level : Nat) : List N → Except PyErr (List (N × Nat))
  | [] => .ok []
  | n :: ns =>
    match (if isKey n then g n else .ok []) with
    | .error e => .error e
    | .ok l =>
      match exploreList isKey g level ns with
      | .error e => .error e
      | .ok r => .ok ((n, level) :: l ++ r)

/-- `explore_hierarchy` below the root, L48-59 (`level > 0`). -/
def explore (h : Hier N) : Nat → Nat → N → Except PyErr (List (N × Nat))
  | 0, _, _ => .error .runtimeError
  | f + 1, level, k =>
    match h.lookup k with
    | none => .error .keyError
    | some l => exploreList (fun (i : N) => decide (i ∈ keys h)) (explore h f (level + 1)) level l

/-- The first key with the greatest count, `idxmax`, L43. -/
def firstMax : List (N × Nat) → Option N
  | [] => none
  | (k, n) :: rest => if rest.all (fun p => decide (p.2 ≤ n)) then some k else firstMax rest

/-- `get_hierarchy_levels`, L41-46: the assignments, starting with the root. -/
def levels (h : Hier N) (f : Nat) : Except PyErr (List (N × Nat)) :=
  match unrollDict h f with
  | .error e => .error e
  | .ok flat =>
    match firstMax ((keys h).zip (flat.map List.length)) with
    | none => .error .valueError
    | some root =>
      match explore h f 1 root with
      | .error e => .error e
      | .ok l => .ok ((root, 0) :: l)

/-- The value a dictionary holds after a list of assignments. -/
def assigned (l : List (N × Nat)) (n : N) : Option Nat := l.reverse.lookup n

/-- What `get_summation_matrix` stores, L324-332: aggregates in the order of the hierarchy, their unrolled bottom series, bottom series in the order of the columns. -/
structure Sys (N : Type) where
  aggr : List N
  flat : List (List N)
  bottoms : List N

/-- `bottom_series`, L325. -/
def bottomsOf (h : Hier N) (cols : List N) : List N := cols.filter (fun c => decide (c ∉ keys h))

/-- Construction of the object (L17) and `get_summation_matrix`, L324-332. -/
def system (h : Hier N) (f : Nat) (cols : List N) : Except PyErr (Sys N) :=
  match unrollDict h f with
  | .error e => .error e
  | .ok flat => .ok ⟨keys h, flat, bottomsOf h cols⟩

/-- Index of all the series: aggregates, then bottom series. -/
abbrev Sys.Idx (s : Sys N) := Fin s.aggr.length ⊕ Fin s.bottoms.length

/-- `ordered_cols`, L276, as a function of the index. -/
def Sys.name (s : Sys N) : s.Idx → N := Sum.elim (fun i => s.aggr[i]) (fun j => s.bottoms[j])

/-- `a_matrix`, L326. -/
def Sys.A (s : Sys N) : Matrix (Fin s.aggr.length) (Fin s.bottoms.length) ℝ := fun i j => if s.bottoms[j] ∈ s.flat.getD i [] then 1 else 0

/-- `s_matrix`, L330-331. -/
def Sys.S (s : Sys N) : Matrix s.Idx (Fin s.bottoms.length) ℝ := Matrix.fromRows s.A 1

open Classical in
/-- `p_matrix`, L289 and L293: `np.linalg.inv` raises `LinAlgError` (a `ValueError`) for singular matrices. -/
noncomputable def Sys.fitP (s : Sys N) (W : Matrix s.Idx s.Idx ℝ) : Except PyErr (Matrix (Fin s.bottoms.length) s.Idx ℝ) :=
  if (s.Sᵀ * W * s.S).det = 0 then .error .valueError else .ok ((s.Sᵀ * W * s.S)⁻¹ * (s.Sᵀ * W))

/-- Reconciled values of a row, L312, by position in `ordered_cols`. -/
noncomputable def Sys.values (s : Sys N) (P : Matrix (Fin s.bottoms.length) s.Idx ℝ) (yhat : N → ℝ) : s.Idx → ℝ := (s.S * P) *ᵥ (fun i => yhat (s.name i))

/-- The list of the reconciled values, aggregates first. -/
noncomputable def Sys.valueList (s : Sys N) (P : Matrix (Fin s.bottoms.length) s.Idx ℝ) (yhat : N → ℝ) : List ℝ :=
  List.ofFn (fun i => s.values P yhat (.inl i)) ++ List.ofFn (fun j => s.values P yhat (.inr j))

/-- Column checks of `reconcile`: `y_hat[self.ordered_cols]` (L312), assignment of the caller's labels (L321). -/
def Sys.check (s : Sys N) (cols : List N) : Except PyErr Unit :=
  if (s.aggr ++ s.bottoms).all (fun c => decide (c ∈ cols)) then
    if cols.length = (s.aggr ++ s.bottoms).length then .ok () else .error .valueError
  else .error .keyError

/-- `reconcile` for `dummy` and `minT`, L310-322: values in `ordered_cols` order under the labels of the caller. -/
noncomputable def Sys.reconcile (s : Sys N) (P : Matrix (Fin s.bottoms.length) s.Idx ℝ) (cols : List N) (yhat : N → ℝ) : Except PyErr (List (N × ℝ)) :=
  match s.check cols with
  | .error e => .error e
  | .ok _ => .ok (cols.zip (s.valueList P yhat))

/-- Row labels of the sum or difference of two frames: aligned, the union if they differ. -/
def align (a b : List N) : List N := if a = b then a else a ++ b.filter (fun x => decide (x ∉ a))

/-- Row labels of `ndarray @ DataFrame`: a default index (`int` gives its labels) of the rows of the array; the number of columns of the array must be the number of rows of the frame. -/
def matmul (int : Nat → N) (rows cols : Nat) (b : List N) : Except PyErr (List N) := if b.length = cols then .ok ((List.range rows).map int) else .error .valueError

/-- `reconcile` for `bayes`, L313-320, row labels only: `y_b` and `y_u` hold the columns `bottom_series` and `aggregated_series`. -/
def bayesRows (int : Nat → N) (s : Sys N) (cols : List N) : Except PyErr (List N) :=
  let yu := cols.filter (fun c => decide (c ∉ s.bottoms))
  match matmul int s.aggr.length s.bottoms.length s.bottoms with
  | .error e => .error e
  | .ok ayb =>
    match matmul int s.bottoms.length s.aggr.length (align yu ayb) with
    | .error e => .error e
    | .ok g => matmul int (s.aggr.length + s.bottoms.length) s.bottoms.length (align s.bottoms g)

/-- Names of the series of a global-form frame, `x['name'].unique()`: order of first appearance. -/
def firsts : List N → List N
  | [] => []
  | x :: xs => x :: (firsts xs).filter (fun y => decide (y ≠ x))

/-- Columns of the base forecasts of a frame, L86-102 with `level='all'`: aggregates, then the other series in order of appearance. -/
def order (h : Hier N) (names : List N) : List N := keys h ++ (firsts names).filter (fun c => decide (c ∉ keys h))

/-- `check_x`, L80-83. -/
def checkX (h : Hier N) (names : List N) : Bool := (keys h).all (fun k => decide (k ∈ names))

/-- A fitted object: matrices of the last call of `fit_reconciliation`, and the training errors of the reconciled series by step and row. -/
structure Fitted (N T : Type) where
  s : Sys N
  P : Matrix (Fin s.bottoms.length) s.Idx ℝ
  errs : T → Nat → N → ℝ

/-- `errs_tilde` of a step, L194, L199: targets minus reconciled forecasts, by label. -/
noncomputable def stepErrs (s : Sys N) (P : Matrix (Fin s.bottoms.length) s.Idx ℝ) (cols : List N) (y yhat : Nat → N → ℝ) : Nat → N → ℝ :=
  fun r n => y r n - ((cols.zip (s.valueList P (yhat r))).lookup n).getD 0

/-- The loop over the steps, L187-199: every step overwrites `p_matrix`. -/
noncomputable def fitLoop (s : Sys N) (W : T → Matrix s.Idx s.Idx ℝ) (cols : List N) (y yhat : T → Nat → N → ℝ) : List T → Matrix (Fin s.bottoms.length) s.Idx ℝ → (T → Nat → N → ℝ) →
    Except PyErr (Fitted N T)
  | [], P, errs => .ok ⟨s, P, errs⟩
  | t :: ts, _, errs =>
    match s.fitP (W t) with
    | .error e => .error e
    | .ok P =>
      match s.check cols with
      | .error e => .error e
      | .ok _ => fitLoop s W cols y yhat ts P (fun t' => if t' = t then stepErrs s P cols (y t) (yhat t) else errs t')

/-- `fit`, L157-203, for `dummy` (`W` the identity) and `minT` (`W` the estimated precision of the errors of the step). -/
noncomputable def fit (h : Hier N) (f : Nat) (names : List N) (W : (s : Sys N) → T → Matrix s.Idx s.Idx ℝ) (y yhat : T → Nat → N → ℝ) (targets : List T) : Except PyErr (Fitted N T) :=
  match unrollDict h f with
  | .error e => .error e
  | .ok _ =>
    if checkX h names then
      match system h f (order h names) with
      | .error e => .error e
      | .ok s => fitLoop s (W s) (order h names) y yhat targets 0 (fun _ _ _ => 0)
    else .error .assertionError

/-- `predict`, L205-221, one row and one step. -/
noncomputable def predict (h : Hier N) (m : Fitted N T) (names : List N) (yhat : N → ℝ) : Except PyErr (List (N × ℝ)) :=
  if checkX h names then m.s.reconcile m.P (order h names) yhat else .error .assertionError

/-- Positions of the training rows of an hour, L254. -/
def rowsOf (trH : List Nat) (hour : Nat) : List Nat := (List.range trH.length).filter (fun (i : Nat) => decide (trH[i]? = some hour))

/-- `predict_scenarios`, L252-267: for each hour the mask of the *training* rows is applied to the rows of the prediction, and errors of training rows of that hour, drawn with
replacement (`draw hour scenario position`), are added to them. `base` holds the base forecasts (`vanilla`) or the reconciled ones (`reconciled`) of the rows to predict. The result lists
the rows with their scenarios, hour by hour; the final `sort_index` is not modelled. -/
def scenarios (trH : List Nat) (errs : Nat → N → ℝ) (n : Nat) (base : Nat → N → ℝ) (draw : Nat → Nat → Nat → Nat) : Except PyErr (List (Nat × (Nat → N → ℝ))) :=
  if trH.length = n then
    .ok ((List.range 24).flatMap (fun (hour : Nat) => (rowsOf trH hour).zipIdx.map (fun (ik : Nat × Nat) =>
      (ik.1, fun (sc : Nat) (nm : N) => base ik.1 nm + errs ((rowsOf trH hour).getD (draw hour sc ik.2) 0) nm))))
  else .error .indexError

/-- `predict_scenarios`, L236-267, for one step: `vanilla` starts from the base forecasts, `reconciled` from the reconciled ones; both add errors of the reconciled series (L260). -/
noncomputable def predictScenarios (h : Hier N) (m : Fitted N T) (vanilla : Bool) (names : List N) (trH : List Nat) (n : Nat) (rows : Nat → N → ℝ) (draw : Nat → Nat → Nat → Nat) (t : T) :
    Except PyErr (List (Nat × (Nat → N → ℝ))) :=
  if vanilla then scenarios trH (m.errs t) n rows draw
  else
    match m.s.check (order h names) with
    | .error e => .error e
    | .ok _ => scenarios trH (m.errs t) n (fun i nm => (((order h names).zip (m.s.valueList m.P (rows i))).lookup nm).getD 0) draw

end PyF.Recon
