import Mathlib.Probability.Distributions.Gaussian.Real
import Mathlib.MeasureTheory.Integral.Pi
import Mathlib.Analysis.SpecialFunctions.Integrals.Basic

/-! Expectations of products of random cosines. -/

namespace PyF.RffKernel
open MeasureTheory ProbabilityTheory Real

/-- The uniform distribution on `[0, 2π)`. -/
noncomputable def phase : Measure ℝ := (ENNReal.ofReal (2 * π))⁻¹ • (volume.restrict (Set.Ico 0 (2 * π)))

/-- Independent standard normal numbers. -/
noncomputable def normals (p : ℕ) : Measure (Fin p → ℝ) := Measure.pi (fun _ => gaussianReal 0 1)

instance : IsProbabilityMeasure phase := by
  constructor
  unfold phase
  rw [Measure.smul_apply, Measure.restrict_apply_univ, Real.volume_Ico, sub_zero, smul_eq_mul]
  exact ENNReal.inv_mul_cancel (by simp [Real.pi_pos]) ENNReal.ofReal_ne_top

instance (p : ℕ) : IsProbabilityMeasure (normals p) := by
  unfold normals
  infer_instance

theorem phase_integral (f : ℝ → ℝ) : ∫ u, f u ∂phase = (2 * π)⁻¹ * ∫ u in (0)..(2 * π), f u := by
  unfold phase
  rw [integral_smul_measure, intervalIntegral.integral_of_le (by positivity), Measure.restrict_congr_set Ico_ae_eq_Ioc, smul_eq_mul, ENNReal.toReal_inv,
    ENNReal.toReal_ofReal (by positivity)]

theorem phase_cos (α : ℝ) : ∫ u, cos (α + 2 * u) ∂phase = 0 := by
  rw [phase_integral, intervalIntegral.integral_comp_add_mul (fun x => cos x) (two_ne_zero) α, integral_cos]
  have : sin (α + 2 * (2 * π)) = sin (α + 2 * 0) := by
    have h := Real.sin_periodic.nat_mul 2 α
    rw [mul_zero, add_zero]
    rw [← h]
    norm_num
  rw [this, sub_self, smul_zero, mul_zero]

theorem phase_product (A B : ℝ) : ∫ u, cos (A + u) * cos (B + u) ∂phase = cos (A - B) / 2 := by
  have e : ∀ u, cos (A + u) * cos (B + u) = cos (A - B) / 2 + cos (A + B + 2 * u) / 2 := by
    intro u
    have h := Real.cos_add_cos (A + B + 2 * u) (A - B)
    have h1 : (A + B + 2 * u + (A - B)) / 2 = A + u := by ring
    have h2 : (A + B + 2 * u - (A - B)) / 2 = B + u := by ring
    rw [h1, h2] at h
    linarith
  simp_rw [e]
  rw [integral_add (integrable_const _), integral_div, integral_div, phase_cos, integral_const]
  · simp
  · refine Integrable.div_const ?_ 2
    refine Integrable.of_bound (C := 1) (by fun_prop) (Filter.Eventually.of_forall fun u => ?_)
    rw [Real.norm_eq_abs]
    exact Real.abs_cos_le_one _

theorem normals_cos (p : ℕ) (d : Fin p → ℝ) : ∫ g, cos (∑ i, d i * g i) ∂(normals p) = exp (-(∑ i, d i ^ 2) / 2) := by
  have hc : ∫ g, Complex.exp (((∑ i, d i * g i : ℝ) : ℂ) * Complex.I) ∂(normals p) = Complex.exp (((-(∑ i, d i ^ 2) / 2 : ℝ) : ℂ)) := by
    have e : ∀ g : Fin p → ℝ, Complex.exp (((∑ i, d i * g i : ℝ) : ℂ) * Complex.I) = ∏ i, Complex.exp ((d i : ℂ) * (g i : ℂ) * Complex.I) := by
      intro g
      rw [← Complex.exp_sum]
      congr 1
      push_cast
      rw [Finset.sum_mul]
    simp_rw [e]
    unfold normals
    rw [integral_fintype_prod_eq_prod (fun i (x : ℝ) => Complex.exp ((d i : ℂ) * (x : ℂ) * Complex.I))]
    have h1 : ∀ i, ∫ x : ℝ, Complex.exp ((d i : ℂ) * (x : ℂ) * Complex.I) ∂(gaussianReal 0 1) = Complex.exp (-(d i : ℂ) ^ 2 / 2) := by
      intro i
      rw [← charFun_apply_real, charFun_gaussianReal]
      congr 1
      simp
      ring
    simp_rw [h1]
    rw [← Complex.exp_sum]
    congr 1
    push_cast
    rw [← Finset.sum_neg_distrib, Finset.sum_div]
  have hint : Integrable (fun g : Fin p → ℝ => Complex.exp (((∑ i, d i * g i : ℝ) : ℂ) * Complex.I)) (normals p) := by
    refine Integrable.of_bound (C := 1) (Continuous.aestronglyMeasurable (by fun_prop)) (Filter.Eventually.of_forall fun u => ?_)
    rw [Complex.norm_exp_ofReal_mul_I]
  have hre := congrArg Complex.re hc
  rw [← Complex.ofReal_exp, Complex.ofReal_re] at hre
  rw [← hre]
  have := integral_re (𝕜 := ℂ) hint
  simp only [RCLike.re_to_complex] at this
  rw [← this]
  refine integral_congr_ae (Filter.Eventually.of_forall fun g => ?_)
  exact (Complex.exp_ofReal_mul_I_re _).symm

/-- The expected product of two random cosines with the same frequencies and phase. -/
theorem product_expectation (p : ℕ) (s : ℝ) (x y : Fin p → ℝ) :
    ∫ z, cos (∑ i, x i * (s * z.1 i) + z.2) * cos (∑ i, y i * (s * z.1 i) + z.2) ∂((normals p).prod phase) = exp (-(s ^ 2 * ∑ i, (x i - y i) ^ 2) / 2) / 2 := by
  rw [integral_prod]
  · simp_rw [phase_product]
    rw [integral_div]
    congr 1
    have e : ∀ g : Fin p → ℝ, ∑ i, x i * (s * g i) - ∑ i, y i * (s * g i) = ∑ i, (s * (x i - y i)) * g i := by
      intro g
      rw [← Finset.sum_sub_distrib]
      exact Finset.sum_congr rfl fun i _ => by ring
    simp_rw [e]
    rw [normals_cos]
    congr 2
    rw [Finset.mul_sum]
    congr 1
    exact Finset.sum_congr rfl fun i _ => by ring
  · refine Integrable.of_bound (C := 1) (by fun_prop) (Filter.Eventually.of_forall fun u => ?_)
    rw [Real.norm_eq_abs, abs_mul]
    exact mul_le_one₀ (Real.abs_cos_le_one _) (abs_nonneg _) (Real.abs_cos_le_one _)

end PyF.RffKernel
