import Verif.ICNN.Init

/-! C298: the size of the weights `positive_lecun` creates, for ideal random numbers. -/

namespace PyF.ICNN
open PyF MeasureTheory ProbabilityTheory

theorem integral_abs_gaussian : ∫ x, |x| ∂(gaussianReal 0 1) = Real.sqrt (2 / Real.pi) := by
  have h1 : ∫ x, |x| ∂(gaussianReal 0 1) = ∫ x : ℝ, (fun r : ℝ => gaussianPDFReal 0 1 r * r) |x| := by
    rw [integral_gaussianReal_eq_integral_smul one_ne_zero]
    refine integral_congr_ae (Filter.Eventually.of_forall fun x => ?_)
    simp only [smul_eq_mul, gaussianPDFReal_def, sub_zero, sq_abs]
  rw [h1, integral_comp_abs (f := fun r : ℝ => gaussianPDFReal 0 1 r * r)]
  have h2 : ∫ x in Set.Ioi (0 : ℝ), gaussianPDFReal 0 1 x * x = (Real.sqrt (2 * Real.pi))⁻¹ * ∫ x in Set.Ioi (0 : ℝ), x ^ (1 : ℝ) * Real.exp (-(1 / 2) * x ^ (2 : ℝ)) := by
    rw [← integral_const_mul]
    refine setIntegral_congr_fun measurableSet_Ioi fun x _ => ?_
    simp only [gaussianPDFReal_def, sub_zero, NNReal.coe_one, mul_one, Real.rpow_one, Real.rpow_two]
    rw [show -x ^ 2 / 2 = -(1 / 2) * x ^ 2 by ring]
    ring
  rw [h2, integral_rpow_mul_exp_neg_mul_rpow two_pos (by norm_num) (by norm_num)]
  norm_num
  have h3 : Real.sqrt 2 * Real.sqrt 2 = 2 := Real.mul_self_sqrt (by norm_num)
  have h4 : Real.sqrt 2 ≠ 0 := by positivity
  have h5 : Real.sqrt Real.pi ≠ 0 := by
    have := Real.sqrt_pos.2 Real.pi_pos
    exact this.ne'
  field_simp
  nlinarith

theorem integral_uniform : ∫ x, |x| ∂(volume.restrict (Set.Icc (0 : ℝ) 1)) = 1 / 2 := by
  have h : ∫ x in Set.Icc (0 : ℝ) 1, |x| = ∫ x in Set.Icc (0 : ℝ) 1, x := setIntegral_congr_fun measurableSet_Icc fun x hx => abs_of_nonneg hx.1
  rw [h, integral_Icc_eq_integral_Ioc, ← intervalIntegral.integral_of_le zero_le_one, integral_id]
  norm_num

variable {Ω : Type} [MeasurableSpace Ω]

/-- Ideal random numbers: standard normal, and uniform on the unit interval. -/
structure IdealInit (P : Measure Ω) (normal unif : Ω → ℕ → ℕ → ℝ) : Prop where
  normal_meas : ∀ i j, AEMeasurable (fun ω => normal ω i j) P
  normal_law : ∀ i j, P.map (fun ω => normal ω i j) = gaussianReal 0 1
  unif_meas : ∀ i j, AEMeasurable (fun ω => unif ω i j) P
  unif_law : ∀ i j, P.map (fun ω => unif ω i j) = volume.restrict (Set.Icc (0 : ℝ) 1)

/-- C298: the weights `positive_lecun` creates are on average proportional to one over the root of the number of *outputs*; so the sum of the weights of the `m` inputs of a unit grows in
proportion to `m`, whereas the scale of Lecun, one over the root of the number of inputs, would let it grow like the root. -/
theorem C298_sum_of_weights (P : Measure Ω) [IsProbabilityMeasure P] (normal unif : Ω → ℕ → ℕ → ℝ) (hI : IdealInit P normal unif) (nOut m j : ℕ) :
    (∃ k : Ω → ℕ → ℕ → ℝ, (∀ ω, positiveLecun nOut "normal" (normal ω) (unif ω) = .ok (k ω)) ∧
      ∫ ω, ∑ i ∈ Finset.range m, k ω i j ∂P = m / Real.sqrt nOut * (Real.sqrt (2 / Real.pi) / 10)) ∧
    ∃ k : Ω → ℕ → ℕ → ℝ, (∀ ω, positiveLecun nOut "uniform" (normal ω) (unif ω) = .ok (k ω)) ∧
      ∫ ω, ∑ i ∈ Finset.range m, k ω i j ∂P = m / Real.sqrt nOut * (1 / 20) := by
  have key : ∀ (f : Ω → ℕ → ℕ → ℝ) (μ : Measure ℝ) (c : ℝ), (∀ i j, AEMeasurable (fun ω => f ω i j) P) → (∀ i j, P.map (fun ω => f ω i j) = μ) → Integrable (fun x : ℝ => |x|) μ → ∫ x, |x| ∂μ = c →
      ∫ ω, ∑ i ∈ Finset.range m, |f ω i j * (1 / Real.sqrt nOut)| / 10 ∂P = m / Real.sqrt nOut * (c / 10) := by
    intro f μ c hm hl hint hc
    have hs : (0 : ℝ) ≤ 1 / Real.sqrt nOut := by positivity
    have h1 : ∀ i, Integrable (fun ω => |f ω i j|) P := by
      intro i
      have := hint
      rw [← hl i j, integrable_map_measure (by fun_prop) (hm i j)] at this
      exact this
    have h2 : ∀ i, ∫ ω, |f ω i j| ∂P = c := by
      intro i
      rw [← hc, ← hl i j, integral_map (hm i j) (by fun_prop)]
    have h3 : ∀ i ω, |f ω i j * (1 / Real.sqrt nOut)| / 10 = 1 / Real.sqrt nOut / 10 * |f ω i j| := by
      intro i ω
      rw [abs_mul, abs_of_nonneg hs]
      ring
    simp_rw [h3]
    rw [integral_finsetSum _ (fun i _ => (h1 i).const_mul _)]
    simp_rw [integral_const_mul, h2]
    rw [Finset.sum_const, Finset.card_range, nsmul_eq_mul]
    ring
  constructor
  · refine ⟨fun ω i j => |normal ω i j * (1 / Real.sqrt nOut)| / 10, fun ω => ?_, ?_⟩
    · unfold positiveLecun
      rw [if_pos rfl]
    · refine key normal (gaussianReal 0 1) _ hI.normal_meas hI.normal_law ?_ integral_abs_gaussian
      exact ((memLp_id_gaussianReal (μ := 0) (v := 1) 1).integrable (by norm_num)).abs
  · refine ⟨fun ω i j => |unif ω i j * (1 / Real.sqrt nOut)| / 10, fun ω => ?_, ?_⟩
    · unfold positiveLecun
      rw [if_neg (by decide), if_pos rfl]
    · have := key unif _ _ hI.unif_meas hI.unif_law (continuous_abs.continuousOn.integrableOn_compact isCompact_Icc) integral_uniform
      rw [this]
      norm_num

end PyF.ICNN
