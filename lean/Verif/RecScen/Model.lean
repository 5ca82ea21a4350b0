import Verif.Common
import Mathlib.Algebra.Group.Defs

/-!
Model of `HierarchicalReconciliation.get_scenarios` (`pyforecaster/reconciliation/reconciliation.py` L135-156, defined again with `self`
at L352-372; the second definition is the one in force).

A frame is its width and its rows, each with the hour of its time stamp; the code only uses `values`, so columns are matched by position
and have no names here. `np.random.choice(np.arange(L), n)` is an oracle `draw hour scenario k` (the `k`-th of the `n` positions).
-/

namespace PyF.RecScen
open PyF

variable {K : Type}

/-- A frame: number of columns, and per row the hour of its index and its values. -/
structure Frame (K : Type) where
  width : Nat
  rows : List (Nat × List K)

/-- `errs_tr_vals[h_idx_tr, :]`, L359-361: the rows of an hour. -/
def ofHour (f : Frame K) (h : Nat) : List (List K) := (f.rows.filter (fun (p : Nat × List K) => decide (p.1 = h))).map (·.2)

/-- `np.random.choice(np.arange(L), n)`, L364: nothing can be drawn from nothing unless nothing is asked for. -/
def choice (L n : Nat) (draw : Nat → Nat) : Except PyErr (List Nat) :=
  if L = 0 ∧ n ≠ 0 then .error .valueError else .ok ((List.range n).map draw)

/-- `errs_tr_h[np.random.choice(...), :]`, L364. -/
def drawn (errs : List (List K)) (nTe : Nat) (draw : Nat → Nat) : Except PyErr (List (List K)) :=
  match choice errs.length nTe draw with
  | .error e => .error e
  | .ok ps => takeRows errs ps

/-- `np.dstack([... for n in range(n_scenarios)])`, L363-364: what is drawn, by scenario, then by row of the hour. An empty list of arrays
cannot be stacked. -/
def block (errs : List (List K)) (nTe nSc : Nat) (draw : Nat → Nat → Nat) : Except PyErr (List (List (List K))) :=
  match (List.range nSc).mapM (fun (s : Nat) => drawn errs nTe (draw s)) with
  | .error e => .error e
  | .ok [] => .error .valueError
  | .ok (b :: bs) => .ok (b :: bs)

/-- The entry in column `j` of a drawn row when the block has `wTr` columns and the target has more: a single column is repeated (numpy
broadcasting), L363. -/
def col [Zero K] (wTr : Nat) (row : List K) (j : Nat) : K := row.getD (if wTr = 1 then 0 else j) 0

/-- `err_scenarios[h_idx_te, :, :] = block`, L363: the `k`-th row of the mask gets the `k`-th rows of the block. Rows of the array are lists
over columns of lists over scenarios. -/
def assign [Zero K] (wTr wTe : Nat) (h : Nat) (b : List (List (List K))) : Nat → List Nat → List (List (List K)) → List (List (List K))
  | k, hr :: hs, row :: rows =>
    if hr = h then ((List.range wTe).map (fun (j : Nat) => b.map (fun (sc : List (List K)) => col wTr (sc.getD k []) j))) :: assign wTr wTe h b (k + 1) hs rows
    else row :: assign wTr wTe h b k hs rows
  | _, _, _ => []

/-- One pass of the loop, L358-364. Shapes must agree, or the block has a single column. -/
def step [Zero K] (errs yhat : Frame K) (nSc : Nat) (draw : Nat → Nat → Nat → Nat) (h : Nat) (arr : List (List (List K))) : Except PyErr (List (List (List K))) :=
  match block (ofHour errs h) (ofHour yhat h).length nSc (draw h) with
  | .error e => .error e
  | .ok b =>
    if errs.width = yhat.width ∨ errs.width = 1 then .ok (assign errs.width yhat.width h b 0 (yhat.rows.map (·.1)) arr) else .error .valueError

/-- `for h in range(24)`, L358. -/
def loop [Zero K] (errs yhat : Frame K) (nSc : Nat) (draw : Nat → Nat → Nat → Nat) : List Nat → List (List (List K)) → Except PyErr (List (List (List K)))
  | [], arr => .ok arr
  | h :: hs, arr =>
    match step errs yhat nSc draw h arr with
    | .error e => .error e
    | .ok arr' => loop errs yhat nSc draw hs arr'

/-- What `get_scenarios` returns: an array or the number 0. -/
inductive Res (K : Type)
  | array (a : List (List (List K)))
  | zero

/-- `get_scenarios`, L352-372. -/
def getScenarios [Zero K] [Add K] (errs yhat : Frame K) (nSc : Nat) (method : String) (draw : Nat → Nat → Nat → Nat) : Except PyErr (Res K) :=
  if method = "unconditional" then
    match loop errs yhat nSc draw (List.range 24) (yhat.rows.map (fun _ => List.replicate yhat.width (List.replicate nSc 0))) with
    | .error e => .error e
    | .ok arr => .ok (.array (List.zipWith (fun (p : Nat × List K) (row : List (List K)) => List.zipWith (fun (y : K) (es : List K) => es.map (fun (e : K) => y + e)) p.2 row) yhat.rows arr))
  else if method = "conditional" then .ok .zero
  else .error .notImplementedError

end PyF.RecScen
