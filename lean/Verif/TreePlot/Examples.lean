import Verif.TreePlot.Props
import Mathlib.Tactic.IntervalCases

namespace PyF.TreePlot
open PyF PyF.Scenred

/-- Root, two nodes, three leaves. -/
def exN : List (Node Int) := [⟨0, 1, 5, none⟩, ⟨1, 1 / 2, 6, some 0⟩, ⟨1, 1 / 2, 4, some 0⟩, ⟨2, 1 / 4, 7, some 1⟩, ⟨2, 1 / 4, 3, some 1⟩, ⟨2, 1 / 2, 2, some 2⟩]

example : WF exN ∧ exN ≠ [] := by
  refine ⟨?_, by decide⟩
  intro k x hx
  have hk : k < 6 := (List.getElem?_eq_some_iff.1 hx).1
  interval_cases k <;> cases hx
  · left; exact ⟨rfl, rfl, rfl⟩
  · right; exact ⟨0, _, rfl, by decide, rfl, rfl⟩
  · right; exact ⟨0, _, rfl, by decide, rfl, rfl⟩
  · right; exact ⟨1, _, rfl, by decide, rfl, rfl⟩
  · right; exact ⟨1, _, rfl, by decide, rfl, rfl⟩
  · right; exact ⟨2, _, rfl, by decide, rfl, rfl⟩

example : (plotNew exN).toOption = some [[(0, 5), (1, 6), (2, 7)], [(0, 5), (1, 6), (2, 3)], [(0, 5), (1, 4), (2, 2)]] := by decide +kernel

/-- Two lines of an earlier plot are updated, the third path is not shown; a fourth line would stay. -/
example : (plotUpdate exN [[(0, 9)], [(0, 8)]]).toOption = some [[(0, 5), (1, 6), (2, 7)], [(0, 5), (1, 6), (2, 3)]] ∧
    ((plotUpdate exN [[], [], [], [(0, 8)]]).toOption.map (fun r => r.drop 3)) = some [[(0, 8)]] := by decide +kernel

/-- After plotting a variable the values of the tree are gone. -/
example : ((plotVars 0 exN [10, 11, 12] false).toOption.map (fun r => r.1.map (fun x => x.v))) = some [10, 11, 12, 7, 3, 2] ∧
    ((plotVars 0 exN [10, 11, 12] true).toOption.map (fun r => r.1.map (fun x => x.v))) = some [0, 10, 11, 12, 3, 2] := by decide +kernel

/-- Three scenarios of one step: one line; of two steps: three. -/
example : ((plotScen 1 3 1 (fun t i _ => t + i)).toOption.map List.length) = some 1 ∧ ((plotScen 2 3 1 (fun t i _ => t + i)).toOption.map List.length) = some 3 := by decide +kernel

end PyF.TreePlot
