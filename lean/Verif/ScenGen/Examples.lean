import Verif.ScenGen.Props
import Mathlib.Data.Rat.Defs
import Mathlib.Algebra.Order.Field.Rat

/-! Concrete instances of the hypotheses of the theorems on copulas and scenarios. -/

namespace PyF.ScenGen
open PyF

/- C54: levels 1/10, 1/2, 9/10 with quantiles 1, 2, 6. -/
example : ([1 / 10, 1 / 2, 9 / 10] : List ℚ).Pairwise (· < ·) ∧ ([1, 2, 6] : List ℚ).Pairwise (· ≤ ·) := by decide +kernel
example : interp [1 / 10, 1 / 2, 9 / 10] [1, 2, 6] (7 / 10 : ℚ) = 4 ∧ interp [1 / 10, 1 / 2, 9 / 10] [1, 2, 6] (1 : ℚ) = 7 ∧ interp [1 / 2, 1 / 10, 9 / 10] [2, 1, 6] (3 / 10 : ℚ) = 3 / 2 := by decide +kernel
example : (([1 / 10, 1 / 2] : List ℚ).zip [1, 2]).Perm (([1 / 2, 1 / 10] : List ℚ).zip [2, 1]) ∧ (([1 / 10, 1 / 2] : List ℚ).zip [1, 2]).Pairwise (fun a b => a.1 ≠ b.1) := by decide +kernel
example : Shaped ([1 / 10, 1 / 2] : List ℚ) 2 [[[1, 2], [3, 4]]] := by
  unfold Shaped; decide +kernel

/- C55: rows at hours 3, 4, 3, two steps: two scenarios are drawn, one is refused. -/
example : (match sample (fun z : ℚ => z) (fun h => if h < 5 then some h else none) (fun _ cov k _ j c s => (1000 * cov + 100 * k + 10 * j + c + s / 2 : ℚ)) 2 2 [3, 4, 3] with
    | .ok f => decide (f 2 1 1 = 3211 + 1 / 2 ∧ f 1 0 0 = 4100) | .error _ => false) = true := by decide +kernel
example : (sample (fun z : ℚ => z) (fun h => if h < 5 then some h else none) (fun _ _ _ _ _ _ _ => (0 : ℚ)) 2 1 [3, 4, 3]).isOk = false := by decide +kernel
example : (sample (fun z : ℚ => z) (fun h => if h < 4 then some h else none) (fun _ _ _ _ _ _ _ => (0 : ℚ)) 2 2 [3, 4, 3]).isOk = false := by decide +kernel

/- C103: hour 5 is the most frequent one, there is one row at midnight; the latter is used. -/
example : (match glassoRows [5, 5, 0, 5] with | .ok rows => decide (rows = [2]) | .error _ => false) = true := by decide +kernel
example : (glassoRows [5, 5, 1, 5]).isOk = false := by decide +kernel

/- C104: equal correlations at hours 3 and 4, one row each. -/
example : ([3, 4] : List Nat).count 3 = ([3, 4] : List Nat).count 4 ∧ (([3, 4] : List Nat).take 0).count 3 = (([3, 4] : List Nat).take 1).count 4 := by decide

/- C102: the sampling of the scenarios succeeds, the forecaster fails. -/
example : (predictScenarios 1 ([1 / 10, 9 / 10] : List ℚ) 2 2 2 [[[1, 2], [3, 4]]] true none (.ok (fun _ _ _ => 1 / 2)) (fun _ _ => 0) (fun _ _ _ => 0)).isOk = true ∧
    (forecasterScenarios 1 ([1 / 10, 9 / 10] : List ℚ) 2 2 2 [[[1, 2], [3, 4]]] true (.ok (fun _ _ _ => 1 / 2)) (fun _ _ => 0) (fun _ _ _ => 0)).isOk = false := by decide +kernel

/- C105: a builder that counts hours. -/
example : (match prefit true (List.range 24) (fun h s => (.ok (h + 100 * s.getD 1) : Except PyErr Nat)) with | .ok t => decide (t 0 = some 100 ∧ t 7 = some 10007) | .error _ => false) = true := by decide +kernel
example : (prefit true (List.range 23) (fun h _ => (.ok h : Except PyErr Nat))).isOk = false := by decide +kernel

/- C106: three targets, two quantiles. -/
example : ∀ i o, i < 2 → o < 3 → stackFrame 2 (fun c => (c : ℚ)) i o = o * 2 + i := by
  intro i o _ _
  simp [stackFrame]

end PyF.ScenGen
