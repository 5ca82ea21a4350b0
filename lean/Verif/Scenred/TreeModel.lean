import Verif.Scenred.Model
import Mathlib.Data.List.Sort

/-!
Model of the helpers on trees (`pyforecaster/scenred.py` L347-354, L366-387, L402-422). A tree is the list of its nodes in the
order of `g.nodes`; labels are positions (shown for the trees of `get_network`). `networkx` itself is modelled by the
order in which nodes enter a `DiGraph` and by the parent pointers.
-/

namespace PyF.Scenred
open PyF

variable {V : Type}

/-- The edges in creation order, L348-350. -/
def edges (N : List (Node V)) : List (Nat × Nat) :=
  N.zipIdx.filterMap (fun (x, k) => x.parent.map (fun (p : Nat) => (p, k)))

/-- Adding a node to a graph: an existing one is left in place. -/
def addLabel (l : List Nat) (k : Nat) : List Nat := if k ∈ l then l else l ++ [k]

/-- `nx.DiGraph(edges)`, L351: nodes in the order in which they occur in the edges. -/
def graphNodes (es : List (Nat × Nat)) : List Nat :=
  es.foldl (fun l e => addLabel (addLabel l e.1) e.2) []

/-- Labels of the nodes of the graph returned by `get_network`, L347-354 (`set_node_attributes` ignores labels that are not in
the graph). -/
def graphLabels (N : List (Node V)) : List Nat := graphNodes (edges N)

/-- `nx.ancestors`: the chain of parents, nearest first, with a bound on its length. -/
def chain (N : List (Node V)) : Nat → Nat → List Nat
  | 0, _ => []
  | f + 1, k =>
    match (N[k]?).bind (·.parent) with
    | none => []
    | some p => p :: chain N f p

/-- L373-374: sorted ancestors followed by the leaf. -/
def pathTo (N : List (Node V)) (k : Nat) : List Nat := (chain N N.length k).insertionSort (· ≤ ·) ++ [k]

/-- `np.max(t)`, L370. -/
def maxTime (N : List (Node V)) : Nat := (N.map (·.t)).foldl max 0

/-- The leaves, L370: the nodes of the last time. -/
def leaves (N : List (Node V)) : List Nat := (List.range N.length).filter (fun (k : Nat) => ((N[k]?).map (·.t)) == some (maxTime N))

/-- `retrieve_scenarios_indexes`, L366-381: one column of labels per leaf, and the leaves. The maximum of an empty tree, and a
column of the wrong length, are `ValueError`s. -/
def retrieve (N : List (Node V)) (dynOffset : Bool) : Except PyErr (List (List Int) × List Int) :=
  if N.isEmpty then .error .valueError
  else if (leaves N).all (fun (k : Nat) => (pathTo N k).length == maxTime N + 1) then
    let cols := (leaves N).map (fun (k : Nat) => (pathTo N k).map (fun (i : Nat) => (i : Int)))
    let ls := (leaves N).map (fun (i : Nat) => (i : Int))
    if dynOffset then .ok (cols.map (fun col => (col.drop 1).map (fun i => i - 1)), ls.map (fun i => i - 1))
    else .ok (cols, ls)
  else .error .valueError

/-- `replace_var` without offset, L384-387: the value of node `i` becomes the `i`-th given one; surplus values are ignored, nodes
without a new value keep the old one. -/
def replaceVar (N : List (Node V)) (vals : List V) : List (Node V) :=
  N.zipIdx.map (fun (x, k) => match vals[k]? with | some v => { x with v := v } | none => x)

/-- One pass of the loop of `_superimpose_signal_to_tree`, L416-417: every entry with time `t` gets `x t` added. -/
def addAt [Add V] (times : List Nat) (x : Nat → V) (vals : List V) (t : Nat) : List V :=
  List.zipWith (fun (tm : Nat) (v : V) => if tm = t then v + x t else v) times vals

/-- `np.unique`: increasing, without repetitions. -/
def unique (l : List Nat) : List Nat := (l.dedup).insertionSort (· ≤ ·)

/-- `superimpose_signal_to_tree`, L402-418. The signal has a value for every time of the tree (the compiled loop does not check
bounds). -/
def superimpose [Add V] (x : Nat → V) (N : List (Node V)) : List (Node V) :=
  replaceVar N ((unique (N.map (·.t))).foldl (addAt (N.map (·.t)) x) (N.map (·.v)))

/-- `get_nodes_per_time_from_tree`, L420-422. -/
def nodesPerTime (N : List (Node V)) : List Nat :=
  (unique (N.map (·.t))).map (fun (t : Nat) => (N.map (·.t)).countP (· == t))

end PyF.Scenred
