import Verif.Brutal.Choice
import Verif.Brutal.Units
import Verif.Brutal.Spread
import Mathlib.Tactic.Positivity

namespace PyF.Brutal

open PyF

/-- Four rows with two features; the second one separates the targets. -/
def exRows : List Row := [fun f => if f = 0 then 1 else 1, fun f => if f = 0 then 5 else 2, fun f => if f = 0 then 1 else 8, fun f => if f = 0 then 5 else 9]

/-- One inner cut: a value in the middle. -/
def exCuts (l : List ℚ) : List ℚ := [l.sum / l.length]

example : (bestFeature exCuts 2 exRows ([1, 1, 5, 6].map some) [0, 1, 2, 3]).toOption = some 1 := by decide +kernel

/-- The errors of the two features. -/
example : stageError exCuts exRows ([1, 1, 5, 6].map some) [0, 1, 2, 3] 0 = some (41 / 8) ∧ stageError exCuts exRows ([1, 1, 5, 6].map some) [0, 1, 2, 3] 1 = some (1 / 8) := by
  decide +kernel

example : (fitPredict (1 / 10) exCuts 2 exRows [1, 1, 5, 6] [[0, 1, 2, 3], [3, 3, 0, 1]] (fun _ => 9)).toOption = some (some (219 / 200)) := by
  decide +kernel

/-- Targets shifted by 100: the forecasts by 19. -/
example : (fitPredict (1 / 10) exCuts 2 exRows [101, 101, 105, 106] [[0, 1, 2, 3], [3, 3, 0, 1]] (fun _ => 9)).toOption
    = some (some (219 / 200 + 19)) := by
  decide +kernel

example : (fitPredict (1 / 10) exCuts 2 exRows [100, 100, 100, 100] [[0, 1, 2, 3], [3, 3, 0, 1]] (fun _ => 9)).toOption = some (some 19) := by decide +kernel

/-- A row in a bin without bootstrap rows is NaN. -/
example : (fitPredict (1 / 10) exCuts 1 exRows [1, 1, 5, 6] [[0, 2]] (fun _ => 0)).toOption = some none := by decide +kernel

example : (fitPredict (1 / 10) exCuts 2 exRows [1, 1, 5, 6] [] (fun _ => 0)).toOption = none := by decide +kernel

/-- The cuts of two bins more than ends: thirds. -/
example : cutsOf 2 [1, 4, 7, 2] = [2, 4] := by decide +kernel

/-- Rows far beyond the training data and at its edge. -/
example : fitPredict (1 / 10) (cutsOf 2) 2 exRows [1, 1, 5, 6] [[0, 1, 2, 3], [3, 3, 0, 1]] (fun _ => 9) = fitPredict (1 / 10) (cutsOf 2) 2 exRows [1, 1, 5, 6]
    [[0, 1, 2, 3], [3, 3, 0, 1]] (fun _ => 1000) :=
  C335_beyond (1 / 10) 2 2 exRows _ _ (by decide) _ _ (by
    intro f hf
    right; left
    intro t ht
    simp only [exRows, List.map_cons, List.map_nil, List.mem_cons, List.not_mem_nil, or_false] at ht
    rcases ht with h | h | h | h <;> (rw [h]; split <;> norm_num))

/-- Both features in other units. -/
example : fitPredict (1 / 10) (cutsOf 2) 2 (exRows.map (fun r f => (f + 1 : ℚ) * r f + 3)) [1, 1, 5, 6] [[0, 1, 2, 3], [3, 3, 0, 1]] (fun f => (f + 1 : ℚ) * 9 + 3)
    = fitPredict (1 / 10) (cutsOf 2) 2 exRows [1, 1, 5, 6] [[0, 1, 2, 3], [3, 3, 0, 1]] (fun _ => 9) :=
  C335_units (1 / 10) 2 2 exRows _ _ (by decide) (fun _ => 9) (fun f => (f + 1 : ℚ)) (fun _ => 3) (fun f => by positivity)

example : (fitPredict (1 / 10) (cutsOf 2) 2 exRows [1, 1, 5, 6] [[0, 1, 2, 3], [3, 3, 0, 1]] (fun _ => 1000)).toOption = some (some (219 / 200)) := by decide +kernel

/-- The error in the bootstrap rows before and after a stage that is 1, 1, 11/2, 11/2 there. -/
example : residual (1 / 10) exRows ([1, 1, 5, 6].map some) (stage exCuts exRows ([1, 1, 5, 6].map some) [0, 1, 2, 3] 1) = [some (9 / 10), some (9 / 10), some (89 / 20), some (109 / 20)] := by
  decide +kernel

example : ([9 / 10, 9 / 10, 89 / 20, 109 / 20].map (fun (v : ℚ) => v * v)).sum = ([1, 1, 5, 6].map (fun (v : ℚ) => v * v)).sum
    - 1 / 10 * (2 - 1 / 10) * ([1, 1, 11 / 2, 11 / 2].map (fun (v : ℚ) => v * v)).sum := by
  decide +kernel

/-- One feature; the first draw misses the bin of the rows 1 and 3, whose residuals become NaN and stay so when the second
draws row 1. -/
def exOne : List Row := [fun _ => 1, fun _ => 5, fun _ => 1, fun _ => 5, fun _ => 2]

/-- A cut at 3. -/
def exCut (_ : List ℚ) : List ℚ := [3]

example : (fitPredict (1 / 10) exCut 1 exOne [1, 2, 3, 4, 5] [[0, 2]] (fun _ => 7)).toOption = some none ∧
    (fitPredict (1 / 10) exCut 1 exOne [1, 2, 3, 4, 5] [[1, 2], [0, 1]] (fun _ => 7)).toOption = some (some (19 / 50)) ∧
    (fitPredict (1 / 10) exCut 1 exOne [1, 2, 3, 4, 5] [[0, 2], [0, 1]] (fun _ => 7)).toOption = some none := by decide +kernel

/-- With two features a NaN that is drawn makes the first one win although the second fits exactly. -/
example : (bestFeature exCuts 2 exRows [some 1, some 1, some 5, none] [0, 1, 2, 3]).toOption = some 0 ∧ (bestFeature exCuts 2 exRows [some 1, some 1, some 5, none] [0, 1, 2]).toOption = some 1 := by
  decide +kernel

end PyF.Brutal
