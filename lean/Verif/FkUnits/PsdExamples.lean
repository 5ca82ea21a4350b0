import Verif.FkUnits.Psd
import Verif.FkUnits.Examples

/-! Examples for C340. -/

namespace PyF.FkUnits
open PyF PyF.Fast Matrix

theorem inv1_ok : PinvOk inv1 := by
  intro S _
  refine ⟨by ext a b; simp [inv1], ?_⟩
  ext a b
  simp only [Matrix.mul_apply, inv1, Nat.reduceAdd, Finset.univ_unique, Fin.default_eq_zero, Finset.sum_singleton]
  by_cases h : S 0 0 = 0
  · simp [h]
  · field_simp

/-- The new filter of `c0` takes a sample: it still has a filter, with a variance of at least zero. -/
example : ∃ s F, Reach c0 pinv0 0 1000 s ∧ s.filter = some F ∧ s.hist.length = 1 ∧ F.P.PosSemidef := by
  have h := c0_first
  cases hf : fit c0 pinv0 (fresh c0 0 1000) [3] with
  | error e => rw [hf] at h; cases h
  | ok p =>
    obtain ⟨s, rs⟩ := p
    have hr : Reach c0 pinv0 0 1000 s := .fit _ s [3] rs .new hf
    have hs : (∃ F, s.filter = some F) ∧ s.hist.length = 1 := by
      unfold fit at hf
      rw [if_neg (by simp)] at hf
      simp only [List.length_singleton, List.range_one, loop] at hf
      split at hf
      · cases hf
      · next s1 o h1 =>
        injection hf with hf
        injection hf with e1 e2
        rw [← e1]
        unfold step at h1
        split at h1
        · cases h1
        · simp only [fresh] at h1
          split at h1
          · cases h1
          · injection h1 with h1
            injection h1 with h1 _
            rw [← h1]
            refine ⟨Option.isSome_iff_exists.1 ?_, by simp⟩
            simp only [refresh]
            rw [if_neg (by simp [c0])]
            rfl
    obtain ⟨⟨F, hF⟩, hl⟩ := hs
    exact ⟨s, F, hr, hF, hl, (C340_psd c0 pinv0 inv1_ok 0 1000 le_rfl (by norm_num) s hr F hF).1⟩

/-- One step from the initial covariance: the variance stays between zero and a thousand. -/
example : 0 ≤ (kalman inv1 (0 : Vec 0) ((1000 : ℝ) • (1 : Mat 0)) 0 (fun _ => 3) ((1000 : ℝ) • (1 : Mat 0))).2 0 0 ∧
    (kalman inv1 (0 : Vec 0) ((1000 : ℝ) • (1 : Mat 0)) 0 (fun _ => 3) ((1000 : ℝ) • (1 : Mat 0))).2 0 0 ≤ 1000 := by
  have h := (C340_step inv1 inv1_ok (0 : Vec 0) (fun _ => 3) ((1000 : ℝ) • (1 : Mat 0)) 0 ((1000 : ℝ) • (1 : Mat 0)) (PosSemidef.one.smul (by norm_num)) PosSemidef.zero
    (PosSemidef.one.smul (by norm_num))).2 0
  simpa using h

/-- Two coefficients that move oppositely: the estimated matrix is a correlation matrix. -/
example (M : Mat 1) (h : corrcoef [![1, -1], ![2, -2], ![4, -4]] = some M) : M 0 0 = 1 ∧ |M 0 1| ≤ 1 :=
  ⟨(corrcoef_isCorr _ M h).2.1 0, (corrcoef_isCorr _ M h).2.2.1 0 1⟩

end PyF.FkUnits
