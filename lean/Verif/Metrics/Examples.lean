import Verif.Metrics.Props

/-! Concrete instances of the hypotheses of the metrics theorems. -/

namespace PyF.Metrics
open PyF

/-- Observations of three rows and two steps. -/
def exT : Table := fun i j => (i : ℚ) + 2 * j
/-- A forecast wrong in row 1 only. -/
def exX : Table := fun i j => (i : ℚ) + 2 * j + if i = 1 then 3 else 0

/- C58: labels on the rows; rows 0 and 2 share a label and are perfect. -/
example : (match mse 3 2 ["a", "b", "a"] exX exT with | .ok g => decide (g.at "a" 0 = 0 ∧ g.at "b" 0 = 9) | .error _ => false) = true := by decide +kernel
/- labels on the columns. -/
example : (match mse 3 2 ["a", "b"] exX exT with | .ok g => decide (g.at "a" 0 = 0 ∧ g.at "b" 1 = 9) | .error _ => false) = true := by decide +kernel
example : (match nmae 3 2 ["a", "b"] true exX exT with | .ok g => decide (0 < g.at "b" 1 ∧ g.at "a" 0 = 0) | .error _ => false) = true := by decide +kernel
example : ((Point.nmae true).run 3 2 ["a", "b", "a"] exX exT).isOk = true := by decide +kernel
example : (Point.mape.run 3 2 ["a", "b", "c", "d"] exX exT).isOk = false := by decide +kernel

/-- Two quantiles for three rows and two steps, one below, one above the observations except in row 1. -/
def exQ : QHat := { d1 := 2, d2 := 2, val := fun i j k => exT i j + (if k = 0 then -1 else 1) * (if i = 1 then 0 else 1) }
example : Preferred exQ 2 ∧ [(1 / 10 : ℚ), 9 / 10].length ≤ exQ.d2 ∧ ∀ i j, exQ.val i j 0 ≤ exQ.val i j 1 := by
  refine ⟨rfl, le_refl _, ?_⟩
  intro i j
  by_cases h : i = 1 <;> simp [exQ, h]
example : (match crps 3 2 [0, 1, 0] exQ exT (some [1 / 10, 9 / 10]) with | .ok c => decide (c 1 0 = 0 ∧ c 0 0 = 1 / 10) | .error _ => false) = true := by decide +kernel
example : (match reliability 3 2 [0, 1, 0] false exQ exT (some [1 / 10, 9 / 10]) false with | .ok out => decide (out.map (fun x => x.2 0 0) = [0, 1]) | .error _ => false) = true := by decide +kernel

/- C57: two quantiles second, three steps: refused without levels. -/
example : (reliability 4 3 [0, 0, 0] false { d1 := 2, d2 := 3, val := fun _ _ _ => 0 } (fun _ _ => 1) none false).isOk = false := by decide +kernel
example : (reliability 4 3 [0, 0, 0] false { d1 := 3, d2 := 5, val := fun _ _ _ => 0 } (fun _ _ => 1) none false).isOk = true := by decide +kernel

/- C56: the median of three observations minimises the score of level 1/2. -/
example : (([1, 2, 5] : List ℚ).countP (fun y => decide (y < 2)) : ℚ) ≤ 1 / 2 * ([1, 2, 5] : List ℚ).length ∧ 1 / 2 * ([1, 2, 5] : List ℚ).length ≤ (([1, 2, 5] : List ℚ).countP (fun y => decide (y ≤ 2)) : ℚ) := by decide +kernel

/- C100: with three quantiles and two steps the array is read as intended, with two and two it is transposed: the error of step 1 and level 0
uses the value of level 1 and step 0. -/
example : (match errAlpha { d1 := 2, d2 := 2, val := fun _ k j => (10 * k + j : ℚ) } 2 (fun _ _ => 0) 0 with | .ok e => decide (e 0 1 = 10) | .error _ => false) = true := by decide +kernel
example : (match errAlpha { d1 := 3, d2 := 2, val := fun _ k j => (10 * k + j : ℚ) } 2 (fun _ _ => 0) 0 with | .ok e => decide (e 0 1 = 1) | .error _ => false) = true := by decide +kernel

/- C101: four rows and one target with errors 3 and -3 in two rows: the score is the mean absolute error 3/2 (the rmse would be 3/√2). -/
example : rmseScorer 4 1 (fun i _ => if i = 0 then 3 else if i = 1 then -3 else 0) (fun _ _ => 0) = .ok (3 / 2) := by
  rw [C101_single_target_is_mae 4 (by decide)]
  congr 1
  norm_num [Finset.sum_range_succ]

end PyF.Metrics
