import Verif.FkRun.Psd
import Verif.FkRun.Examples

/-! Examples for C339. -/

namespace PyF.FkRun
open PyF Matrix

/-- Two experts and a pseudo-inverse: the inverse, or zero for a singular matrix. -/
noncomputable def psdC : Cfg 2 := { m := 2, nsa := 1, r := 1, q := 1, pinv := fun M => M⁻¹ }

theorem psdC_ok : PinvOk psdC := by
  intro S hS
  refine ⟨by show (S⁻¹)ᵀ = S⁻¹; rw [transpose_nonsing_inv, hS], ?_⟩
  show S⁻¹ * S * S⁻¹ = S⁻¹
  by_cases h : IsUnit S.det
  · rw [nonsing_inv_mul S h, one_mul]
  · rw [nonsing_inv_apply_not_isUnit S h, mul_zero]

/-- A fit and a prediction succeed and leave a positive semidefinite covariance. -/
example : ∃ o' rows, call psdC exE { experts := 0, states := fresh psdC } [1, 2, 4] true = .ok (o', rows) ∧ o'.states.P.PosSemidef := by
  obtain ⟨o', rows, h, -⟩ := C204_first_rows psdC exE { experts := 0, states := fresh psdC } [1, 2, 4] true (by simp [exE])
  refine ⟨o', rows, h, C339_psd psdC psdC_ok (by simp [psdC]) (by simp [psdC]) exE 0 [([1, 2, 4], true)] o' [rows] ?_⟩
  simp only [calls]
  rw [h]

theorem two_corr : IsCorr (!![1, -1; -1, 1] : Mat 2) := by
  refine ⟨?_, ?_, ?_, fun z => ?_⟩
  · intro a b; fin_cases a <;> fin_cases b <;> simp
  · intro a; fin_cases a <;> simp
  · intro a b; fin_cases a <;> fin_cases b <;> simp
  · simp only [Fin.sum_univ_two]
    simp
    nlinarith [sq_nonneg (z 0 - z 1)]

/-- The step with the singular noise of two experts: no variance grows by more than one. -/
example : ∀ a, (filter psdC { x := none, P := 1, Q := some !![1, -1; -1, 1], R := some ((10 : ℝ) • !![1, -1; -1, 1]) } none).P a a ≤ 2 := by
  intro a
  obtain ⟨X, _, _, _, _, h⟩ := C339_step psdC psdC_ok { x := none, P := 1, Q := some !![1, -1; -1, 1], R := some ((10 : ℝ) • !![1, -1; -1, 1]) } none _ _ rfl rfl PosSemidef.one
    (isCorr_psd two_corr) ((isCorr_psd two_corr).smul (by norm_num))
  refine le_trans (h a).2 ?_
  rw [two_corr.2.1 a]
  simp
  norm_num

end PyF.FkRun
