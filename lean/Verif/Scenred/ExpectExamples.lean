import Verif.Scenred.Expect
import Verif.Scenred.Examples

namespace PyF.Scenred
open PyF

-- C305: the four scenarios in tolerance mode, at the last step
example : (∀ j, j < (tableCfg 3 [1, 1, 1] (1 / 10) exS).T → (tableCfg 3 [1, 1, 1] (1 / 10) exS).nodes j = 1) ∧ Spread (tableCfg 3 [1, 1, 1] (1 / 10) exS) exS 2 ∧
    2 ≤ count (tableCfg 3 [1, 1, 1] (1 / 10) exS) exS 3 ∧ (1 / 10 : ℚ) / (3 / 2) ^ (2 + 2) ≠ infty ∧ Good (tableCfg 3 [1, 1, 1] (1 / 10) exS) := by
  refine ⟨by decide +kernel, ?_, by decide +kernel, by norm_num [infty], tableCfg_good 3 (by omega) _ (by decide) _ _ (by decide +kernel)⟩
  unfold Spread
  decide +kernel

-- a function of the scenarios that varies at most as the distance: the sum of the steps
example : ∀ r k : Fin 4, |(exS 0 r + exS 1 r + exS 2 r) - (exS 0 k + exS 1 k + exS 2 k)| ≤ (tableCfg 3 [1, 1, 1] (1 / 10) exS).dist 2 r k := by decide +kernel

-- the value at the last step has mean 4, and 9/2 over the tree
example : (∑ a, (row exCfg exS 2).P a * finalS exCfg exS 2 a) = 9 / 2 ∧ (∑ k, exS 2 k) / 4 = 4 := by decide +kernel

/-- C305 (witness): the distance to a tree with a single scenario is 6 and every first merge costs more than the tolerated share of it, but a second merge is made at the last step. -/
theorem C305_exceeded : LeastSum (tableCfg 3 [1, 1, 1] (1 / 2) exS) 2 (fun _ => true) (4 * 6) ∧ (∀ r k, r ≠ k → (1 / 2 : ℚ) / (3 / 2) ^ (2 + 2) * 6 < 1 / 4 * (tableCfg 3 [1, 1, 1] (1 / 2) exS).dist 2 r k) ∧
    count (tableCfg 3 [1, 1, 1] (1 / 2) exS) exS 2 = 2 := by
  refine ⟨?_, by decide +kernel, by decide +kernel⟩
  unfold LeastSum
  decide +kernel

end PyF.Scenred
