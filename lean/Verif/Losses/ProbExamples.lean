import Verif.Losses.ProbProps

/-! Concrete instances of C315: two rows, two targets, the objective is the sum of the targets. -/

namespace PyF.Losses
open Spec

/-- The sum of the two targets. -/
def sum2 (p : Fin 2 → Fin 2 → ℝ) (i : Fin 2) : ℝ := p i 0 + p i 1

/-- A variance of zero in the second row. -/
example : structuredProbLoss sum2 (joined (fun i j => ((i : ℕ) : ℝ) + (j : ℕ)) (fun i => if i = 0 then 1 else 0)) (fun _ _ => 1) = none :=
  (C315_nan _ _ _ _).2 (Or.inr ⟨1, by norm_num⟩)

/-- Positive variances. -/
example : structuredProbLoss sum2 (joined (fun i j => ((i : ℕ) : ℝ) + (j : ℕ)) (fun _ => 1)) (fun _ _ => 1) ≠ none := by
  rw [Ne, C315_nan]
  norm_num

/-- Perfect forecasts with variance `1/2` score less than with variance 1. -/
example : structuredProbLoss sum2 (joined (fun i j => ((i : ℕ) : ℝ) + (j : ℕ)) (fun _ => 1 / 2)) (fun i j => ((i : ℕ) : ℝ) + (j : ℕ)) =
    some (Real.log (1 / 2) - 1) :=
  (C315_floor (le_refl 2) sum2 (fun _ _ => 0) _ (fun _ => 0)).2 (1 / 2) (by norm_num)

/-- Errors of the two targets that cancel in the objective: the best variance is the smallest allowed. -/
example (r r' : ℝ)
    (h : structuredProbLoss sum2 (joined (fun _ j => if j = 0 then 5 else -5) (fun _ => 25)) (fun _ _ => 0) = some r)
    (h' : structuredProbLoss sum2 (joined (fun _ j => if j = 0 then 5 else -5) (fun _ => 1)) (fun _ _ => 0) = some r') : r' < r := by
  obtain ⟨a, b, ha, hb, hle, hiff⟩ := C315_variance (n := 2) (le_refl 2) sum2 (fun _ j => if j = 0 then 5 else -5) (fun _ _ => 0)
    (v := 1) (by norm_num) (fun _ => 25) (fun _ => by norm_num)
  have e : (fun i => bestVar 1 ((sum2 (fun _ j => if j = 0 then 5 else -5) i - sum2 (fun _ _ => 0) i) ^ 2)) = fun _ => (1 : ℝ) := by
    funext i
    norm_num [bestVar, sum2]
  rw [e, h'] at hb
  rw [h] at ha
  obtain rfl := Option.some.inj ha
  obtain rfl := Option.some.inj hb
  apply lt_of_le_of_ne hle
  intro hh
  have := hiff.1 hh.symm 0
  have e0 := congrFun e 0
  rw [e0] at this
  norm_num at this

end PyF.Losses
