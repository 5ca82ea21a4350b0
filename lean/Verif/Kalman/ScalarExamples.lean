import Verif.Kalman.Scalar

namespace PyF.Kalman

-- C310: variance 1 and noise 1: one observation should leave 1/2, the filter reports 3/8 (inverse 8/3, between 1 + 5/3 and 1 + 2)
example (x y : ℝ) : run x 1 1 [y] = (sv (y + 1 / 2 * (x - y)), sm (3 / 8)) := by
  unfold run
  rw [List.foldl_cons, List.foldl_nil, scalar_step x 1 y 1 one_pos one_pos]
  norm_num

-- C310: after two observations the initial estimate should weigh 1/3, it weighs 4/11
example (x y : ℝ) : (run x 1 1 [y, y]).1 = sv (y + 4 / 11 * (x - y)) := by
  unfold run
  rw [List.foldl_cons, scalar_step x 1 y 1 one_pos one_pos, List.foldl_cons, List.foldl_nil, scalar_step _ _ y 1 (by norm_num) one_pos]
  refine congrArg sv (?_ : y + 1 / (1 * 1 * (1 ^ 2 + 1 * 1 + 1 ^ 2) / (1 + 1) ^ 3 + 1) * (y + 1 / (1 + 1) * (x - y) - y) = y + 4 / 11 * (x - y))
  ring

end PyF.Kalman
