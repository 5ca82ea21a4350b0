import Verif.FkUnits.Model
import Verif.Kalman.Model

/-! The filter step of `FK` is the Kalman filter of `utilities.py` with identity transition and observation. -/

namespace PyF.FkUnits
open Matrix

/-- C260 (the filter): where `pinv` is the inverse, one filter step of `FK` is `kalman` of `utilities.py` as `Verif.Kalman` models it
for arbitrary matrices, with the identity as transition and as observation matrix. -/
theorem C260_filter {d : Nat} (x : Vec d) (P Q : Mat d) (y : Vec d) (R : Mat d) :
    kalman (fun M => M⁻¹) x P Q y R = Kalman.kalman x P 1 Q y (1 : Mat d) R := by
  simp [kalman, Kalman.kalman, Kalman.kPredict, Kalman.kUpdate, Kalman.gain]

/-- One coefficient, gain (1 + 1) / (1 + 1 + 2) = 1/2. -/
example : (Kalman.kalman (fun _ => 2) (1 : Mat 0) 1 1 (fun _ => 4) (1 : Mat 0) ((2 : ℝ) • 1)).1 0 = 3 := by
  rw [← C260_filter]
  have h : ((1 : Mat 0) + 1 + (2 : ℝ) • 1)⁻¹ = ((1 : ℝ) / 4) • (1 : Mat 0) := by
    apply Matrix.inv_eq_left_inv
    ext i j
    fin_cases i; fin_cases j
    simp [Matrix.smul_apply]
    norm_num
  simp only [kalman, h]
  simp [Matrix.mulVec, dotProduct]
  norm_num

end PyF.FkUnits
