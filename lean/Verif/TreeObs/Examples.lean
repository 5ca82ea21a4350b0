import Verif.TreeObs.Props
import Mathlib.Tactic.IntervalCases

namespace PyF.TreeObs
open PyF PyF.Scenred

/-- Root 5, then 4 and 6 and a dead end 9, then three leaves under the first two, two of them with the same value. -/
def exN : List (Node (List ℚ)) :=
  [⟨0, 1, [5], none⟩, ⟨1, 1 / 2, [6], some 0⟩, ⟨1, 1 / 4, [4], some 0⟩, ⟨1, 1 / 4, [9], some 0⟩,
   ⟨2, 1 / 4, [7], some 1⟩, ⟨2, 1 / 4, [3], some 1⟩, ⟨2, 1 / 4, [3], some 2⟩]

example : (obsAtStep exN 1).toOption = some [4, 6] ∧ (obsAtStep exN 2).toOption = some [3, 7] ∧
    (obsAtStep exN (-1)).toOption = some [3, 7] ∧ (obsAtStep exN 3).toOption = none := by decide +kernel

example : WF exN := by
  intro k x hx
  have hk : k < 7 := (List.getElem?_eq_some_iff.1 hx).1
  interval_cases k <;> cases hx
  · left; exact ⟨rfl, rfl, rfl⟩
  · right; exact ⟨0, _, rfl, by decide, rfl, rfl⟩
  · right; exact ⟨0, _, rfl, by decide, rfl, rfl⟩
  · right; exact ⟨0, _, rfl, by decide, rfl, rfl⟩
  · right; exact ⟨1, _, rfl, by decide, rfl, rfl⟩
  · right; exact ⟨1, _, rfl, by decide, rfl, rfl⟩
  · right; exact ⟨2, _, rfl, by decide, rfl, rfl⟩

/-- Without the dead end every node reaches the last time. -/
def exFull : List (Node (List ℚ)) := [⟨0, 1, [5], none⟩, ⟨1, 1 / 2, [6], some 0⟩, ⟨1, 1 / 2, [4], some 0⟩]

example : ∀ i < exFull.length, ∃ k, Below exFull i k ∧ Last exFull k := by
  intro i hi
  have hl : ∀ k, k = 1 ∨ k = 2 → Last exFull k := by
    rintro k (rfl | rfl)
    · exact ⟨_, rfl, by decide⟩
    · exact ⟨_, rfl, by decide⟩
  have hi' : i < 3 := hi
  interval_cases i
  · exact ⟨1, .child 0 1 _ .self rfl rfl, hl 1 (Or.inl rfl)⟩
  · exact ⟨1, .self, hl 1 (Or.inl rfl)⟩
  · exact ⟨2, .self, hl 2 (Or.inr rfl)⟩

end PyF.TreeObs
