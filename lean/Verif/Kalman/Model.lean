import Mathlib.LinearAlgebra.Matrix.PosDef
import Mathlib.LinearAlgebra.Matrix.NonsingularInverse
import Mathlib.Data.Real.Basic

/-!
Model of `kalman_predict`, `kalman_update` and `kalman` (`pyforecaster/utilities.py` L29-47) with real matrices of any size.
`np.linalg.pinv` of an invertible matrix is its inverse; it is modelled by `Matrix.inv`, so only updates with invertible
innovation covariance are covered (the theorems assume a positive definite `R`, for which it is).
-/

namespace PyF.Kalman
open Matrix

variable {n m : Type} [Fintype n] [DecidableEq n] [Fintype m] [DecidableEq m]

/-- `kalman_predict`, L30-33. -/
noncomputable def kPredict (x : n → ℝ) (P F Q : Matrix n n ℝ) : (n → ℝ) × Matrix n n ℝ :=
  (F *ᵥ x, F * (P * Fᵀ) + Q)

/-- The gain, L36-37. -/
noncomputable def gain (P : Matrix n n ℝ) (H : Matrix m n ℝ) (R : Matrix m m ℝ) : Matrix n m ℝ :=
  P * (Hᵀ * (H * (P * Hᵀ) + R)⁻¹)

/-- `kalman_update`, L35-42: the covariance is updated at L39 and then once more at L41 with the Joseph form. -/
noncomputable def kUpdate (x : n → ℝ) (P : Matrix n n ℝ) (y : m → ℝ) (H : Matrix m n ℝ) (R : Matrix m m ℝ) :
    (n → ℝ) × Matrix n n ℝ :=
  let K := gain P H R
  let x' := x + K *ᵥ (y - H *ᵥ x)
  let P1 := P - K * (H * P)
  let A := 1 - K * H
  (x', A * (P1 * Aᵀ) + K * (R * Kᵀ))

/-- `kalman`, L44-47. -/
noncomputable def kalman (x : n → ℝ) (P F Q : Matrix n n ℝ) (y : m → ℝ) (H : Matrix m n ℝ) (R : Matrix m m ℝ) :
    (n → ℝ) × Matrix n n ℝ :=
  let r := kPredict x P F Q
  kUpdate r.1 r.2 y H R

end PyF.Kalman
