import Verif.Metrics.Units
import Verif.Metrics.Examples

/-! Concrete instances for C289 and C290. -/

namespace PyF.Metrics
open PyF

/- From watts to kilowatts and back. -/
example : (match mse 3 2 ["a", "b"] (affine 1000 7 exX) (affine 1000 7 exT), mse 3 2 ["a", "b"] exX exT with
  | .ok g', .ok g => decide (g'.at "b" 1 = 1000 ^ 2 * g.at "b" 1 ∧ g.at "b" 1 = 9) | _, _ => false) = true := by decide +kernel

/- The relative error does depend on the units. -/
example : (match mape 3 2 ["a", "b"] (affine 1000 0 exX) (affine 1000 0 exT), mape 3 2 ["a", "b"] exX exT with
  | .ok g', .ok g => decide (g.at "a" 1 < g'.at "a" 1 ∧ g'.at "a" 1 < 1000 * g.at "a" 1) | _, _ => false) = true := by decide +kernel
example : Grown 1000 (nmae 3 2 ["a", "b"] true exX exT) (nmae 3 2 ["a", "b"] true (affine 1000 0 exX) (affine 1000 0 exT)) :=
  C289_nmae 3 2 (by decide) _ _ _ _ _ (by norm_num)

example : (match crps 3 2 [0, 1, 0] (exQ.affine 2 5) (affine 2 5 exT) (some [1 / 10, 9 / 10]) with
  | .ok c => decide (c 1 0 = 0 ∧ c 0 0 = 2 / 10) | .error _ => false) = true := by decide +kernel
example : (match reliability 3 2 [0, 1, 0] false (exQ.affine 2 5) (affine 2 5 exT) (some [1 / 10, 9 / 10]) false with
  | .ok out => decide (out.map (fun x => x.2 0 0) = [0, 1]) | .error _ => false) = true := by decide +kernel

end PyF.Metrics
