import Verif.FkRun.Cap
import Verif.FkRun.Examples
import Mathlib.LinearAlgebra.Matrix.NonsingularInverse

/-! Concrete instances of C312. -/

namespace PyF.FkRun

/-- One step ahead, histories of two values, the inverse as pseudo-inverse. -/
noncomputable def invC : Cfg 2 := { m := 2, nsa := 1, r := 1, q := 1, pinv := fun M => M⁻¹ }

theorem invC_pinv : ∀ a : ℝ, 0 < a → invC.pinv (a • 1) = a⁻¹ • 1 := by
  intro a ha
  refine Matrix.inv_eq_right_inv ?_
  rw [Matrix.smul_mul, Matrix.mul_smul, Matrix.one_mul, smul_smul, mul_inv_cancel₀ ha.ne', one_smul]

-- One exact expert and one off by ten: not all exact on any row.
theorem ex_not_exact (t : ℕ) : ¬ Spec.AllExact invC.nsa
    (exE.predict (expertsOf exE { experts := 10, states := fresh invC } [1, 2, 3] false) [1, 2, 3]) (exE.obs [1, 2, 3] t) t := by
  intro h
  have := h 1 0 (by simp [invC])
  simp [exE, expertsOf] at this

-- After two rows on which the first expert was exact, the forecast still misses by at least `10 (1 - cap 2)`.
example : ∃ o' rows g, call invC exE { experts := 10, states := fresh invC } [1, 2, 3] false = .ok (o', rows) ∧
    rows[2]? = some (some g) ∧ (1 - Spec.cap 2) * 10 ≤ g 0 - 3 :=
  C312_miss (by norm_num) invC (by simp [invC]) (by simp [invC]) invC_pinv exE 10 [1, 2, 3] false 2 (by simp [exE]) (by simp [invC])
    (fun t _ _ => ex_not_exact t) 0 0 3 10 (by norm_num) (by simp [exE]) (by
      intro j hj
      have : j = 1 := by omega
      subst this
      simp [exE, expertsOf])

example : Spec.cap 2 < 1 ∧ 0 < Spec.floor 2 := C312_cap (by norm_num)

example : ∃ o' rows g w, call invC exE { experts := 10, states := fresh invC } [1, 2, 3] false = .ok (o', rows) ∧
    rows[2]? = some (some g) ∧ Spec.Fair w ∧
    ∀ s, g s = ∑ j, w j * exE.predict (expertsOf exE { experts := 10, states := fresh invC } [1, 2, 3] false) [1, 2, 3] j 2 s :=
  C312_weights (by norm_num) invC (by simp [invC]) (by simp [invC]) invC_pinv exE 10 [1, 2, 3] false 2 (by simp [exE]) (by simp [invC])
    (fun t _ _ => ex_not_exact t)

end PyF.FkRun
