import Verif.NNOpt.Props

namespace PyF.NNOpt

open PyF

/-- Descent on `y²`: `y ← 4/5 y`. -/
def square : Opt ℚ Unit := vanilla (fun y => 2 * y) (fun y => y ^ 2)

/-- C136: too few iterations. -/
example : (match optimize square 9 (1 / 10) 1 with | .error .unboundLocalError => true | _ => false) = true := by decide +kernel

/-- C136: every block improves a lot, so all three blocks asked for are made, plus the first one: forty steps for `n_iter = 30`. -/
example : (match optimize square 35 (1 / 10) 1 with | .ok (r, v, c) => decide (r = (4 / 5) ^ 40 ∧ v = (4 / 5) ^ 78 ∧ c = 3) | _ => false) = true := by decide +kernel

/-- C136: early stop when the tolerance is not met. -/
example : (match optimize square 35 (995 / 1000) 1 with | .ok (_, _, c) => decide (c = 1) | _ => false) = true := by decide +kernel

/-- C137: this optimiser never increases the objective. -/
example : ∀ y s, square.value (square.step y s).1 ≤ square.value y := by
  intro y s
  show (y - 2 * y * (1 / 10)) ^ 2 ≤ y ^ 2
  nlinarith [sq_nonneg y]

/-- C137: the start 1 becomes 3^20 on `20 y²`. -/
example : (match optimize (vanilla (fun y => 2 * 20 * y) (fun y => 20 * y ^ 2)) 200 (1 / 10000) 1 with | .ok (r, _, c) => decide (r = 3 ^ 20 ∧ c = 1) | _ => false) = true := by
  decide +kernel

/-- C138: columns t (an input), u (a control), v (a control that is not normalised). -/
def sc : Scaling := { mean := fun k => if k = ['t'] then 5 else 1, scale := fun k => if k = ['t'] then 2 else 4, normalized := fun k => decide (k ≠ ['v']) }

example : let f : Frame := { cols := [['u'], ['t'], ['v']], val := fun k => if k = ['t'] then 9 else 3 }
    let g := writeBack sc [['u'], ['v']] [10, 7] (exoPart [['u'], ['v']] (normalize sc f)) f
    exoPart [['u'], ['v']] (normalize sc f) = [2] ∧ g.val ['t'] = 9 ∧ g.val ['u'] = 41 ∧ g.val ['v'] = 7 ∧ ctrlPart [['u'], ['v']] (normalize sc g) = [10, 7] := by
  decide +kernel

/-- C139: two targets, two controls; control 1 does not cause target 0, yet has slope 3 there. -/
def table : ℕ → ℕ → ℚ := fun j i => if j = 1 ∧ i = 0 then 0 else 1
def slope : ℕ → ℕ → ℚ := fun i j => if i = 0 ∧ j = 1 then -3 else if i = 2 ∧ j = 1 then 5 else 7

example : causalPenalty false 2 2 table slope = 3 / 4 ∧ causalPenalty true 2 2 table slope = 1 := by decide +kernel

/-- C140. -/
example : (match callLoss (pickLoss true false) with | .error .typeError => true | _ => false) = true := by decide +kernel

end PyF.NNOpt
