import Verif.Scenred.TreeModel
import Verif.Quantile.Model

/-!
Model of `ScenarioTree.gen_init_tree` for `base_tree='quantiles'` and of `ScenarioTree.init_vals` for `init='quantiles'`
(`pyforecaster/tree_builders.py` L35-65, L67-117), of the rank step of `NeuralGas.gen_tree` (L166-184) and of
`update_tree_from_scenarios` (L192-203). Trees are lists of nodes, labels are positions (`Verif/Scenred/TreeModel.lean`).
The default numbers of nodes (L68-75) are modelled in `Verif.TreeInit`; here the numbers of nodes are given.
-/

namespace PyF.TreeBuild
open PyF Scenred

/-- The effective numbers of nodes, L77-85, and the array the caller (or the object) holds afterwards: a leading 1 is added if
there is one number less than `scens.shape[1]`, the number of scenarios; then the first number is set to 1 in place. -/
def effectiveNodes (nScen : Nat) (ns : List Nat) : Except PyErr (List Nat × List Nat) :=
  if (ns.length : Int) = (nScen : Int) - 1 then .ok (1 :: ns, ns)
  else
    match ns with
    | [] => .error .indexError
    | _ :: rest => .ok (1 :: rest, 1 :: rest)

/-- L101-106: `c` children for every parent, with increasing labels; the names of the new nodes are returned as well. -/
def addChildren (t : Nat) (pr : ℚ) (c : Nat) : List Nat → List (Node ℚ) → List (Node ℚ) × List Nat
  | [], N => (N, [])
  | p :: ps, N =>
    let r := addChildren t pr c ps (N ++ List.replicate c { t := t, p := pr, v := 0, parent := some p })
    (r.1, (List.range c).map (fun (i : Nat) => N.length + i) ++ r.2)

/-- L93-107 for the times from `t` on; `prev` is the number of nodes at the step before. (A division by zero raises or, with
numpy integers, fails later; both are `ZeroDivisionError` here.) -/
def addLevels (t : Nat) (N : List (Node ℚ)) (names : List Nat) (prev : Nat) : List Nat → Except PyErr (List (Node ℚ))
  | [] => .ok N
  | m :: ms =>
    if prev = 0 then .error .zeroDivisionError
    else if m % prev ≠ 0 then .error .assertionError
    else
      let r := addChildren t (1 / m) (m / prev) names N
      addLevels (t + 1) r.1 r.2 m ms

/-- L109-115: probabilities of the leaves and of the nodes above them. -/
def setProb (T : Nat) (N : List (Node ℚ)) : List (Node ℚ) :=
  let ls := (List.range N.length).filter (fun (k : Nat) => ((N[k]?).map (·.t)) == some (T - 1))
  N.zipIdx.map (fun (x, k) =>
    { x with p := if k ∈ ls then 1 / (ls.length : ℚ)
                  else ((ls.filter (fun (i : Nat) => decide (k ∈ chain N N.length i))).length : ℚ) / (ls.length : ℚ) })

/-- `gen_init_tree` with `base_tree='quantiles'`, L88-115, from the effective numbers of nodes. -/
def genTree (ns : List Nat) : Except PyErr (List (Node ℚ)) :=
  match ns with
  | [] => .error .indexError
  | m :: ms =>
    match addLevels 1 [{ t := 0, p := 1, v := 0, parent := none }] [0] m ms with
    | .error e => .error e
    | .ok N => .ok (setProb ns.length N)

/-! ### Initial values -/

/-- State of `init_vals`: the scenarios falling into each node and the values (dictionaries keyed by label). -/
structure IV (m : Nat) where
  filters : Nat → Option (List (Fin m))
  vals : Nat → Option ℚ

/-- `list(tree.successors(j))`, L48. -/
def childrenOf {V : Type} (N : List (Node V)) (j : Nat) : List Nat :=
  (List.range N.length).filter (fun (k : Nat) => ((N[k]?).bind (·.parent)) == some j)

/-- L54-57 for one child: the scenarios between the two quantiles, or all of the parent's if there are none. -/
def childFilter {m : Nat} (next : Fin m → ℚ) (fj : List (Fin m)) (lo hi : ℚ) : List (Fin m) :=
  let f := fj.filter (fun s => decide (lo - 1 / 1000000 < next s) && decide (next s ≤ hi))
  if f.isEmpty then fj else f

/-- L46-57 for one node `j` of time `t`. -/
def visit {m : Nat} {V : Type} (N : List (Node V)) (scens : Nat → Fin m → ℚ) (t : Nat) (st : IV m) (j : Nat) : Except PyErr (IV m) :=
  match st.filters j with
  | none => .error .keyError
  | some fj =>
    let ch := childrenOf N j
    let c : ℚ := ch.length
    let q := fun (row : Fin m → ℚ) (x : ℚ) => Quantile.quantileVal (fj.map row) x
    .ok { filters := fun k => match ch.findIdx? (· == k) with
            | none => st.filters k
            | some i => some (childFilter (scens (t + 1)) fj (q (scens (t + 1)) (i / c)) (q (scens (t + 1)) ((i + 1) / c)))
          vals := fun k => match ch.findIdx? (· == k) with
            | none => st.vals k
            | some i => some (q (scens t) ((i + 1) / (c + 1))) }

/-- The nodes of time `t`, L45. -/
def nodesAtTime {V : Type} (N : List (Node V)) (t : Nat) : List Nat :=
  (List.range N.length).filter (fun (k : Nat) => ((N[k]?).map (·.t)) == some t)

/-- The loop over a list of nodes. -/
def visitAll {m : Nat} {V : Type} (N : List (Node V)) (scens : Nat → Fin m → ℚ) (t : Nat) : IV m → List Nat → Except PyErr (IV m)
  | st, [] => .ok st
  | st, j :: js =>
    match visit N scens t st j with
    | .error e => .error e
    | .ok st' => visitAll N scens t st' js

/-- L41-43. -/
def start {m : Nat} (scens : Nat → Fin m → ℚ) : IV m :=
  { filters := fun k => if k = 0 then some (List.finRange m) else none
    vals := fun k => if k = 0 then some (Quantile.quantileVal ((List.finRange m).map (scens 0)) (1 / 2)) else none }

/-- The loop L44-57 over the first `k` of the `T - 1` times. -/
def times {m : Nat} {V : Type} (N : List (Node V)) (scens : Nat → Fin m → ℚ) : Nat → Except PyErr (IV m)
  | 0 => .ok (start scens)
  | k + 1 =>
    match times N scens k with
    | .error e => .error e
    | .ok st => visitAll N scens k st (nodesAtTime N k)

/-- `init_vals`, L40-63: values of the nodes; nodes without a new one keep theirs. -/
def initVals {m : Nat} (N : List (Node ℚ)) (T : Nat) (scens : Nat → Fin m → ℚ) : Except PyErr (List ℚ) :=
  match times N scens (T - 1) with
  | .error e => .error e
  | .ok st => .ok (N.zipIdx.map (fun (x, k) => (st.vals k).getD x.v))

end PyF.TreeBuild
