import Verif.RecScen.Props
import Mathlib.Data.Rat.Defs
import Mathlib.Algebra.Field.Rat

/-! Concrete instances: a sum and its two parts, two training hours. -/

namespace PyF.RecScen
open PyF

def exErrs : Frame ℚ := ⟨3, [(0, [3, 1, 2]), (5, [-1, 1, -2]), (0, [1/2, 1/2, 0])]⟩
def exHat : Frame ℚ := ⟨3, [(5, [10, 4, 6]), (0, [7, 3, 4]), (0, [0, 0, 0])]⟩
def exDraw : Nat → Nat → Nat → Nat := fun h s k => if h = 0 then (s + k) % 2 else 0

def out (r : Except PyErr (Res ℚ)) : Option (List (List (List ℚ))) := match r with | .ok (.array a) => some a | _ => none
def err (r : Except PyErr (Res ℚ)) : Option PyErr := match r with | .error e => some e | _ => none

example : exErrs.Ok ∧ exHat.Ok ∧ Covers exErrs exHat := by
  refine ⟨?_, ?_, ?_⟩ <;> simp [Frame.Ok, Covers, exErrs, exHat]

example : ∀ h s k, (∃ q ∈ exErrs.rows, q.1 = h) → exDraw h s k < (exErrs.rows.filter (fun q => decide (q.1 = h))).length := by
  intro h s k hq
  have : h = 0 ∨ h = 5 := by
    obtain ⟨q, hm, rfl⟩ := hq
    simp only [exErrs, List.mem_cons, List.not_mem_nil, or_false] at hm
    rcases hm with rfl | rfl | rfl <;> simp
  rcases this with rfl | rfl
  · have h2 : (exErrs.rows.filter (fun q => decide (q.1 = 0))).length = 2 := by decide +kernel
    rw [h2]; simp only [exDraw]; exact Nat.mod_lt _ (by decide)
  · have h2 : (exErrs.rows.filter (fun q => decide (q.1 = 5))).length = 1 := by decide +kernel
    rw [h2]; simp [exDraw]

example : out (getScenarios exErrs exHat 2 "unconditional" exDraw) =
    some [[[9, 9], [5, 5], [4, 4]], [[10, 15/2], [4, 7/2], [6, 4]], [[1/2, 3], [1/2, 1], [0, 2]]] := by decide +kernel
example : slice [[[9, 9], [5, 5], [4, 4]], [[10, 15/2], [4, 7/2], [6, 4]], [[1/2, 3], [1/2, 1], [0, (2 : ℚ)]]] 1 1 = some [15/2, 7/2, 4] := by decide +kernel
/-- the sum of the parts, for all rows -/
example : (∀ p ∈ exHat.rows, form [1, -1, -1] p.2 = 0) ∧ ∀ q ∈ exErrs.rows, form [1, -1, -1] q.2 = 0 := by decide +kernel
/-- one row of an hour that was never seen -/
example : err (getScenarios exErrs ⟨3, [(5, [10, 4, 6]), (6, [7, 3, 4])]⟩ 2 "unconditional" exDraw) = some .valueError := by decide +kernel
/-- no scenarios -/
example : err (getScenarios exErrs exHat 0 "unconditional" exDraw) = some .valueError := by decide +kernel
/-- a single column of errors serves all series -/
example : out (getScenarios ⟨1, [(5, [2])]⟩ ⟨2, [(5, [10, 4])]⟩ 1 "unconditional" exDraw) = some [[[12], [6]]] := by decide +kernel
example : err (getScenarios exErrs exHat 2 "bootstrap" exDraw) = some .notImplementedError := by decide +kernel

end PyF.RecScen
