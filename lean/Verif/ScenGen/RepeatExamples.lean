import Verif.ScenGen.Repeat
import Mathlib.Algebra.Order.Ring.Rat

namespace PyF.ScenGen

open PyF

/-- One observation, two steps, the median of every step; the noise of the first call is 1/1000, that of the second 0. -/
example : ((predictScenarios 1 ([1 / 10, 9 / 10] : List ℚ) 2 2 2 [[[1, 2], [3, 4]]] false none (.ok (fun _ _ _ => 1 / 2)) (fun _ _ => 0) (fun _ _ _ => 1 / 1000)).toOption.map
      (fun l => l.map (fun a => (a.rows, a.val 0 0, a.val 1 0)))) = some [(2, 3 / 2 + 1 / 1000, 7 / 2 + 1 / 1000)] ∧
    ((predictScenarios 1 ([1 / 10, 9 / 10] : List ℚ) 2 2 2 [[[1, 2], [3, 4]]] false none (.ok (fun _ _ _ => 1 / 2)) (fun _ _ => 0) (fun _ _ _ => 0)).toOption.map
      (fun l => l.map (fun a => (a.rows, a.val 0 0, a.val 1 0)))) = some [(2, 3 / 2, 7 / 2)] := by
  decide +kernel

end PyF.ScenGen
