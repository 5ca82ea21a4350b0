import Verif.Copula.Methods
import Mathlib.Probability.Moments.Variance

/-! C295: the share of many scenarios below a quantile. -/

namespace PyF.Copula
open PyF PyF.ScenGen PyF.Recon MeasureTheory ProbabilityTheory Matrix

variable {Ω : Type} [MeasurableSpace Ω]

/-- Different scenarios of a call are drawn independently of each other. -/
def IndepScenarios {dim : ℕ} (μ : Measure Ω) (rvs : Ω → Nat → Matrix (Fin dim) (Fin dim) ℝ → Nat → Nat → Nat → Nat → Nat → ℝ) : Prop :=
  ∀ c cov m n i s k k', k ≠ k' → IndepFun (fun ω => rvs ω c cov m n i k s) (fun ω => rvs ω c cov m n i k' s) μ

open Classical in
/-- Number of the `n` scenarios that do not exceed `y` in a row and step. -/
noncomputable def countBelow (ev : ℕ → Set Ω) (n : ℕ) (ω : Ω) : ℕ := ((Finset.range n).filter (fun k => ω ∈ ev k)).card

/-- The share of pairwise independent events of equal probability. -/
theorem share_close (μ : Measure Ω) [IsProbabilityMeasure μ] (X : ℕ → Ω → ℝ) (z p : ℝ) (n : ℕ) (hn : 0 < n) (hm : ∀ k < n, AEMeasurable (X k) μ)
    (hp : ∀ k < n, μ.real (X k ⁻¹' Set.Iic z) = p) (hi : ∀ k < n, ∀ k' < n, k ≠ k' → IndepFun (X k) (X k') μ) :
    ∫ ω, ((countBelow (fun k => X k ⁻¹' Set.Iic z) n ω : ℝ) / n - p) ^ 2 ∂μ ≤ 1 / (4 * n) := by
  have hn' : (0 : ℝ) < n := by exact_mod_cast hn
  set g : ℝ → ℝ := (Set.Iic z).indicator (fun _ => 1) with hg
  have hgm : Measurable g := measurable_const.indicator measurableSet_Iic
  set Y : ℕ → Ω → ℝ := fun k ω => g (X k ω) with hY
  have hYm : ∀ k < n, AEMeasurable (Y k) μ := fun k hk => hgm.comp_aemeasurable (hm k hk)
  have hg01 : ∀ x, g x ∈ Set.Icc (0 : ℝ) 1 := by
    intro x
    by_cases h : x ∈ Set.Iic z
    · rw [hg, Set.indicator_of_mem h]; simp
    · rw [hg, Set.indicator_of_notMem h]; simp
  have hLp : ∀ k ∈ Finset.range n, MemLp (Y k) 2 μ := fun k hk =>
    memLp_of_bounded (a := 0) (b := 1) (Filter.Eventually.of_forall fun ω => hg01 _) (hYm k (Finset.mem_range.1 hk)).aestronglyMeasurable 2
  have hcount : ∀ ω, (countBelow (fun k => X k ⁻¹' Set.Iic z) n ω : ℝ) / n = 1 / (n : ℝ) * ∑ k ∈ Finset.range n, Y k ω := by
    intro ω
    have : ∑ k ∈ Finset.range n, Y k ω = (countBelow (fun k => X k ⁻¹' Set.Iic z) n ω : ℝ) := by
      unfold countBelow
      rw [Finset.card_filter, Nat.cast_sum]
      refine Finset.sum_congr rfl fun k _ => ?_
      by_cases h : X k ω ∈ Set.Iic z
      · rw [if_pos (by exact h), hY]
        simp only [hg, Set.indicator_of_mem h, Nat.cast_one]
      · rw [if_neg (by exact h), hY]
        simp only [hg, Set.indicator_of_notMem h, Nat.cast_zero]
    rw [this]
    ring
  have hmeanY : ∀ k ∈ Finset.range n, ∫ ω, Y k ω ∂μ = p := by
    intro k hk
    have hk' := Finset.mem_range.1 hk
    have h1 : (fun ω => Y k ω) = (X k ⁻¹' Set.Iic z).indicator (fun _ => (1 : ℝ)) := by
      funext ω
      by_cases h : X k ω ∈ Set.Iic z
      · rw [Set.indicator_of_mem (show ω ∈ X k ⁻¹' Set.Iic z from h)]
        simp only [hY, hg, Set.indicator_of_mem h]
      · rw [Set.indicator_of_notMem (show ω ∉ X k ⁻¹' Set.Iic z from h)]
        simp only [hY, hg, Set.indicator_of_notMem h]
    rw [h1, integral_indicator₀ ((hm k hk').nullMeasurable measurableSet_Iic), setIntegral_const, smul_eq_mul, mul_one, hp k hk']
  have hmean : ∫ ω, 1 / (n : ℝ) * ∑ k ∈ Finset.range n, Y k ω ∂μ = p := by
    rw [integral_const_mul, integral_finsetSum _ (fun k hk => (hLp k hk).integrable (by norm_num)), Finset.sum_congr rfl hmeanY, Finset.sum_const, Finset.card_range, nsmul_eq_mul]
    field_simp
  have hsum : MemLp (∑ k ∈ Finset.range n, Y k) 2 μ := memLp_finsetSum' _ hLp
  have hae : AEMeasurable (fun ω => 1 / (n : ℝ) * ∑ k ∈ Finset.range n, Y k ω) μ := by
    have := hsum.aestronglyMeasurable.aemeasurable.const_mul (1 / (n : ℝ))
    simpa [Finset.sum_apply] using this
  have hv := variance_eq_integral hae
  rw [hmean] at hv
  simp_rw [hcount]
  rw [← hv, variance_const_mul]
  have hfun : (fun ω => ∑ k ∈ Finset.range n, Y k ω) = ∑ k ∈ Finset.range n, Y k := by
    funext ω
    rw [Finset.sum_apply]
  rw [hfun, IndepFun.variance_sum hLp]
  · have hb : ∀ k ∈ Finset.range n, ProbabilityTheory.variance (Y k) μ ≤ 1 / 4 := by
      intro k hk
      have := variance_le_sq_of_bounded (a := 0) (b := 1) (μ := μ) (X := Y k) (Filter.Eventually.of_forall fun ω => hg01 _) (hLp k hk).aestronglyMeasurable.aemeasurable
      norm_num at this ⊢
      exact this
    have := Finset.sum_le_card_nsmul _ _ _ hb
    rw [Finset.card_range, nsmul_eq_mul] at this
    calc (1 / (n : ℝ)) ^ 2 * ∑ k ∈ Finset.range n, ProbabilityTheory.variance (Y k) μ ≤ (1 / (n : ℝ)) ^ 2 * (n * (1 / 4)) := mul_le_mul_of_nonneg_left this (by positivity)
      _ = 1 / (4 * n) := by
        field_simp
  · intro k hk k' hk' hne
    exact (hi k (by simpa using hk) k' (by simpa using hk') hne).comp hgm hgm

/-- C295: for independent scenarios the share of the `n` scenarios of a row and step that do not exceed a quantile is within `1 / (4 n)` of `Phi (z / sqrt v)` in mean square; with
ones on the diagonal this is the level of the quantile. -/
theorem C295_share {dim : ℕ} (μ : Measure Ω) [IsProbabilityMeasure μ] (levels : List ℝ) (quantiles : List (List (List ℝ))) (additional : Bool) (obs : Option (List ℝ))
    (pars : Pars (Matrix (Fin dim) (Fin dim) ℝ)) (rvs : Ω → Nat → Matrix (Fin dim) (Fin dim) ℝ → Nat → Nat → Nat → Nat → Nat → ℝ) (hr : Normals μ rvs) (hi : IndepScenarios μ rvs) (ini : Ω → Nat → Nat → ℝ)
    (noise : Ω → Nat → Nat → Nat → ℝ) (n : ℕ) (hours : List ℕ) (t : ℕ) (s : Fin dim) (cov : Matrix (Fin dim) (Fin dim) ℝ) (j : ℕ) (z y : ℝ) (hn : 0 < n)
    (hs : ∀ k < n, Situation levels quantiles obs pars n hours t s k cov j z y) :
    ∫ ω, ((countBelow (fun k => below levels quantiles additional obs pars rvs ini noise n hours t s k y) n ω : ℝ) / n - Phi (z / Real.sqrt (cov s s))) ^ 2 ∂μ ≤ 1 / (4 * n) := by
  obtain ⟨h, ht, hc⟩ := (hs 0 hn).hour
  have hev : ∀ k < n, below levels quantiles additional obs pars rvs ini noise n hours t s k y =
      (fun ω => rvs ω ((uniqueHours hours).idxOf h) cov (hours.count h) n (maskPos hours h t) k s) ⁻¹' Set.Iic z := fun k hk => below_eq levels quantiles additional obs pars rvs ini noise n hours t s k cov j z y (hs k hk) h ht hc
  have hcb : ∀ ω, countBelow (fun k => below levels quantiles additional obs pars rvs ini noise n hours t s k y) n ω =
      countBelow (fun k => (fun ω => rvs ω ((uniqueHours hours).idxOf h) cov (hours.count h) n (maskPos hours h t) k s) ⁻¹' Set.Iic z) n ω := by
    intro ω
    unfold countBelow
    congr 1
    ext k
    simp only [Finset.mem_filter, Finset.mem_range]
    refine and_congr_right fun hk => ?_
    rw [hev k hk]
  simp_rw [hcb]
  refine share_close μ (fun k ω => rvs ω ((uniqueHours hours).idxOf h) cov (hours.count h) n (maskPos hours h t) k s) z _ n hn (fun k _ => hr.meas _ _ _ _ _ _ _) ?_ (fun k _ k' _ hne => hi _ _ _ _ _ _ _ _ hne)
  intro k hk
  rw [← hev k hk]
  exact C293_calibration μ levels quantiles additional obs pars rvs hr ini noise n hours t s k cov j z y (hs k hk)

end PyF.Copula
