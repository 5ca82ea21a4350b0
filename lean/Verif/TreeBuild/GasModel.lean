import Verif.Common
import Mathlib.Data.Rat.Defs
import Mathlib.Data.List.FinRange
import Mathlib.Data.List.Dedup
import Mathlib.Data.List.Sort
import Mathlib.Algebra.Order.Ring.Rat
import Mathlib.Algebra.Order.Group.Unbundled.Abs
import Mathlib.Data.Rat.Lemmas
import Mathlib.Logic.Equiv.Basic
import Mathlib.Algebra.BigOperators.Group.List.Defs

namespace PyF.TreeBuild
open PyF

/-! ## `NeuralGas.gen_tree` and `DiffTree.gen_tree`, /repo/pyforecaster/tree_builders.py

`tree_idxs` is a table `idx t s` of node labels (`T` steps, `L` leaves), `tree_scens` a table of numbers. The random draws, the
schedule of the gains `min(e_k exp(-r / lambda_k), 1)` and the order returned by `np.argsort` are parameters. Plotting, printing and the
loss that is only printed are left out. -/

section gas
variable {L : Nat}

/-- The values of the entries of step `t` of node `u`, L181-182. -/
def group (idx : Nat → Fin L → Nat) (tab : Nat → Fin L → ℚ) (t u : Nat) : List ℚ :=
  ((List.finRange L).filter (fun s => decide (idx t s = u))).map (tab t)

/-- `jnp.mean`. -/
def mean (l : List ℚ) : ℚ := l.sum / l.length

/-- L182: the entries of node `u` at step `t` are replaced by their mean. -/
def setGroup (idx : Nat → Fin L → Nat) (tab : Nat → Fin L → ℚ) (t u : Nat) : Nat → Fin L → ℚ :=
  fun t' s => if t' = t ∧ idx t s = u then mean (group idx tab t u) else tab t' s

/-- `np.unique(tree_idxs[t, :])`, L179. -/
def uniq (idx : Nat → Fin L → Nat) (t : Nat) : List Nat := (((List.finRange L).map (idx t)).dedup).insertionSort (· ≤ ·)

/-- The loops L178-182. -/
def reconcile (idx : Nat → Fin L → Nat) (T : Nat) (tab : Nat → Fin L → ℚ) : Nat → Fin L → ℚ :=
  (List.range T).foldl (fun tb (t : Nat) => (uniq idx t).foldl (fun tb u => setGroup idx tb t u) tb) tab

/-- The loop L173-175: column `i` moves towards the draw by the gain of the entry `ranks[i]`. -/
def attract (gain : Nat → ℚ) (ranks : Fin L → Nat) (draw : Nat → ℚ) (tab : Nat → Fin L → ℚ) : Nat → Fin L → ℚ :=
  fun t i => tab t i + gain (ranks i) * (draw t - tab t i)

/-- `ranks = np.argsort(dists)`, L168: position `i` holds the column with the `i`-th smallest distance. -/
def ranksOf (order : Equiv.Perm (Fin L)) : Fin L → Nat := fun i => (order i : Nat)

/-- `update_tree_from_scenarios`, L192-205, the values for the `n` nodes: all the entries of a node must be equal, and there must be
one. -/
def updateTree (idx : Nat → Fin L → Nat) (T : Nat) (tab : Nat → Fin L → ℚ) : Nat → Except PyErr (List ℚ)
  | 0 => .ok []
  | n + 1 =>
    match updateTree idx T tab n with
    | .error e => .error e
    | .ok vs =>
      match ((List.range T).flatMap (fun (t : Nat) => group idx tab t n)).dedup with
      | [v] => .ok (vs ++ [v])
      | _ => .error .assertionError

/-- What the loop is given at iteration `k`: the gains, the drawn scenario, and the outcome of `argsort`, which depends on the table. -/
structure GasIn (L : Nat) where
  gain : Nat → Nat → ℚ
  draw : Nat → Nat → ℚ
  order : Nat → (Nat → Fin L → ℚ) → Equiv.Perm (Fin L)

/-- One iteration L166-183. -/
def gasStep (g : GasIn L) (idx : Nat → Fin L → Nat) (T k : Nat) (tab : Nat → Fin L → ℚ) : Nat → Fin L → ℚ :=
  reconcile idx T (attract (g.gain k) (ranksOf (g.order k tab)) (g.draw k) tab)

/-- The loop L152-183 with `fuel` iterations left, at iteration `k`; `vals` is the variable `tree_vals`. `rel_dev` is never updated, so
the condition is `1 > tol and k < k_max`. -/
def gasLoop (g : GasIn L) (idx : Nat → Fin L → Nat) (T n : Nat) (tol : ℚ) : Nat → Nat → (Nat → Fin L → ℚ) → List ℚ → Except PyErr ((Nat → Fin L → ℚ) × List ℚ)
  | 0, _, tab, vals => .ok (tab, vals)
  | fuel + 1, k, tab, vals =>
    if 1 > tol then
      match updateTree idx T tab n with
      | .error e => .error e
      | .ok vs => gasLoop g idx T n tol fuel (k + 1) (gasStep g idx T k tab) vs
    else .ok (tab, vals)

/-- The result: the values in the tree, `tree_scens` and `tree_vals`. -/
structure GasOut (L : Nat) where
  treeVals : List ℚ
  scens : Nat → Fin L → ℚ
  vals : List ℚ

/-- `NeuralGas.gen_tree` after the initialisation, L147-187. -/
def neuralGas (g : GasIn L) (idx : Nat → Fin L → Nat) (T n kMax : Nat) (tol : ℚ) (tab : Nat → Fin L → ℚ) (vals : List ℚ) : Except PyErr (GasOut L) :=
  match gasLoop g idx T n tol kMax 0 tab vals with
  | .error e => .error e
  | .ok (tab', vals') =>
    match updateTree idx T tab' n with
    | .error e => .error e
    | .ok tv => .ok { treeVals := tv, scens := tab', vals := vals' }

end gas

/-! ## `DiffTree.gen_tree` -/

section diff
variable {n L : Nat}

/-- State of the loop L223-243. -/
structure DState (n : Nat) where
  vals : Fin n → ℚ
  go : Bool
  past : ℚ
  lr : ℚ

/-- `rel_dev > tol` with `rel_dev = abs(loss - past) / past`, L226: a zero divisor gives `inf` or, for equal values, `nan`. Losses are
non-negative. -/
def exceeds (loss past tol : ℚ) : Bool :=
  if past = 0 then decide (loss ≠ past) else decide (tol < |loss - past| / past)

/-- One pass of the loop at iteration `k`, L224-243. The evaluation compares the loss with `past_loss` after setting `past_loss = loss`. -/
def dStep (loss : (Fin n → ℚ) → ℚ) (grad : (Fin n → ℚ) → Fin n → ℚ) (ev : Nat) (tol : ℚ) (k : Nat) (s : DState n) : DState n :=
  let s1 := if k % ev = 0 then
      let l := loss s.vals
      let go := exceeds l s.past tol
      let past := l
      { s with go := go, past := past, lr := if l > past then s.lr * (4 / 5) else s.lr }
    else s
  { s1 with vals := fun i => s1.vals i - grad s1.vals i * s1.lr }

/-- The loop, L223. -/
def dLoop (loss : (Fin n → ℚ) → ℚ) (grad : (Fin n → ℚ) → Fin n → ℚ) (ev : Nat) (tol : ℚ) : Nat → Nat → DState n → DState n
  | 0, _, s => s
  | fuel + 1, k, s => if s.go then dLoop loss grad ev tol fuel (k + 1) (dStep loss grad ev tol k s) else s

/-- Result of `DiffTree.gen_tree`: values in the tree, `tree_scens`, `tree_vals`, and the learning rate of the object afterwards. -/
structure DOut (n L : Nat) where
  treeVals : Fin n → ℚ
  scens : Nat → Fin L → ℚ
  vals : Fin n → ℚ
  lr : ℚ

/-- `DiffTree.gen_tree`, L212-246, for `init='quantiles'`: `base` are the values of the base tree, `init` those of `init_vals`. The scenarios
returned by `init_vals` are dropped (L218); `evaluation_step = 0` is a `ZeroDivisionError` if the loop is entered. -/
def diffTree (loss : (Fin n → ℚ) → ℚ) (grad : (Fin n → ℚ) → Fin n → ℚ) (idx : Nat → Fin L → Fin n) (base init : Fin n → ℚ) (lr : Option ℚ) (nScen : Nat) (ev kMax : Nat) (tol : ℚ) :
    Except PyErr (DOut n L) :=
  let lr0 := lr.getD (max (1 / nScen) (1 / 10))
  let s0 : DState n := { vals := init, go := decide (1 > tol), past := 1 / 1000000, lr := lr0 }
  if ev = 0 ∧ s0.go = true ∧ kMax ≠ 0 then .error .zeroDivisionError
  else
    let s := dLoop loss grad ev tol kMax 0 s0
    .ok { treeVals := s.vals, scens := fun t k => base (idx t k), vals := s.vals, lr := s.lr }

end diff

end PyF.TreeBuild
