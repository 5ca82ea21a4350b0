import Verif.Scenred.TreeModel

/-!
Model of the plots of trees and scenarios, `pyforecaster/scenred.py` L199-218 (`plot_scen`), L255-272 (`plot_from_graph`) and L390-395 (`plot_vars`): which points the lines have. Colours,
axes and the keywords of matplotlib are not modelled; nodes have one value.
-/

namespace PyF.TreePlot
open PyF PyF.Scenred

variable {V : Type}

/-- A line: its points, horizontal coordinate first. -/
abbrev Line (V : Type) := List (Nat × V)

/-- The nodes of a column of `s_idx`; the labels are positions. -/
def nodesOf (N : List (Node V)) (col : List Int) : List (Node V) := col.filterMap (fun (i : Int) => N[i.toNat]?)

/-- `ax.plot(values[s_idx[:, s]])`, L269-270: the horizontal coordinate is the position. -/
def newLine (N : List (Node V)) (col : List Int) : Line V := (nodesOf N col).zipIdx.map (fun (p : Node V × Nat) => (p.2, p.1.v))

/-- `l.set_data(times[s_idx[:, s]], values[s_idx[:, s]])`, L266. -/
def dataLine (N : List (Node V)) (col : List Int) : Line V := (nodesOf N col).map (fun (x : Node V) => (x.t, x.v))

/-- `plot_from_graph`, L255-272, with `lines=None`. -/
def plotNew (N : List (Node V)) : Except PyErr (List (Line V)) :=
  match retrieve N false with
  | .error e => .error e
  | .ok (cols, _) => .ok (cols.map (newLine N))

/-- `plot_from_graph` with given lines, L264-266: `zip` stops with the shorter list; the list of lines is returned. -/
def plotUpdate (N : List (Node V)) (lines : List (Line V)) : Except PyErr (List (Line V)) :=
  match retrieve N false with
  | .error e => .error e
  | .ok (cols, _) => .ok ((List.zipWith (fun (col : List Int) (_ : Line V) => dataLine N col) cols lines) ++ lines.drop cols.length)

/-- `plot_vars(g, v, dyn_offset=...)`, L390-395 with L384-387: the tree after the call and the lines. -/
def plotVars (nan : V) (N : List (Node V)) (vals : List V) (dynOffset : Bool) : Except PyErr (List (Node V) × List (Line V)) :=
  let N' := replaceVar N (if dynOffset then nan :: vals else vals)
  match plotNew N' with
  | .error e => .error e
  | .ok ls => .ok (N', ls)

/-- `plot_scen(S_s)`, L199-218, for an array of `T` steps, `n` scenarios and `d` variables: the lines by their points. `np.squeeze`, L211, drops all dimensions of length one. -/
def plotScen (T n d : Nat) (S : Nat → Nat → Nat → V) : Except PyErr (List (List (Nat × List V))) :=
  if d = 2 then .ok ((List.range n).map (fun (i : Nat) => (List.range T).map (fun (t : Nat) => (t, [S t i 0, S t i 1]))))
  else if d = 1 then
    if T = 1 then .ok [(List.range n).map (fun (i : Nat) => (i, [S 0 i 0]))]
    else .ok ((List.range n).map (fun (i : Nat) => (List.range T).map (fun (t : Nat) => (t, [S t i 0]))))
  else if 2 < d then .error .unboundLocalError
  else .error .assertionError

end PyF.TreePlot
