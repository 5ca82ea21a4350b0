import Verif.Metrics.Ens

namespace PyF.Metrics

/-- Two quantiles for one target, row by row. -/
def ensQ : QHat := ⟨1, 2, fun i _ k => i + k⟩

-- C309: quantiles 0 and 1, then 1 and 2, both observations 1; the levels are 1/4 and 3/4
example : midLevels 2 = [1 / 4, 3 / 4] ∧ ensCrps 2 (fun k => k) 1 = 1 / 4 ∧ ensCrps 2 (fun k => 1 + k) 1 = 1 / 4 := by decide +kernel

example : (match crps 2 1 [0, 0] ensQ (fun _ _ => 1) (some (midLevels 2)) with
    | .ok cr => decide (cr 0 0 = 1 / 8)
    | .error _ => false) = true := by decide +kernel

-- C309: with the default levels 0 and 1 the score is zero although the observation is random: the fair score
example : fairCrps 2 (fun k => k) 1 = 0 ∧ (match crps 2 1 [0, 0] ensQ (fun _ _ => 1) none with
    | .ok cr => decide (cr 0 0 = 0)
    | .error _ => false) = true := by decide +kernel

example : Preferred ensQ 1 ∧ ∀ i j k k' : Nat, k ≤ k' → k' < 2 → ensQ.val i j k ≤ ensQ.val i j k' := by
  refine ⟨by unfold Preferred; rfl, fun i j k k' h _ => ?_⟩
  have : (k : ℚ) ≤ k' := by exact_mod_cast h
  show (i : ℚ) + k ≤ i + k'
  linarith

end PyF.Metrics
