import Verif.Copula.Props
import Mathlib.Analysis.Real.Pi.Bounds

/-! C294: the covariance matrices of the methods `vanilla` and `shrunk`, and the calibration of the scenarios drawn with them. -/

namespace PyF.Copula
open PyF PyF.ScenGen PyF.Recon MeasureTheory ProbabilityTheory Matrix

section
variable {ι : Type} [Fintype ι] [DecidableEq ι]

/-- Every column takes two different values. -/
def Varying (m : ℕ) (e : ℕ → ι → ℝ) : Prop := ∀ i, ∃ r < m, ∃ r' < m, e r i ≠ e r' i

theorem Varying.variance_pos {m : ℕ} {e : ℕ → ι → ℝ} (h : Varying m e) (i : ι) : 0 < Recon.variance m (fun r => e r i) := by
  refine lt_of_le_of_ne (Recon.variance_nonneg _ _) fun h0 => ?_
  obtain ⟨r, hr, r', hr', hne⟩ := h i
  exact hne ((variance_eq_zero m _).1 h0.symm r hr r' hr')

omit [Fintype ι] in
theorem sd_sq (m : ℕ) (e : ℕ → ι → ℝ) (i : ι) : sd m e i * sd m e i = Recon.variance m (fun r => e r i) := by
  unfold sd
  rw [empCov_diag, Real.mul_self_sqrt (Recon.variance_nonneg _ _)]

theorem Varying.sd_pos {m : ℕ} {e : ℕ → ι → ℝ} (h : Varying m e) (i : ι) : 0 < sd m e i := by
  unfold sd
  rw [empCov_diag]
  exact Real.sqrt_pos.2 (h.variance_pos i)

theorem vanilla_diag {m : ℕ} {e : ℕ → ι → ℝ} (h : Varying m e) (i : ι) : vanilla m e i i = 1 + 1 / 1000000 := by
  unfold vanilla
  rw [sd_sq, empCov_diag, div_self (h.variance_pos i).ne', if_pos rfl]

theorem shrunk_diag {m : ℕ} {e : ℕ → ι → ℝ} (h : Varying m e) (i : ι) :
    shrunk m e i i = 9 / 10 + 1 / 10 * (meanVar m e / Recon.variance m (fun r => e r i)) := by
  unfold shrunk shrunkCov
  have := (h.variance_pos i).ne'
  rw [sd_sq, trace_eq]
  simp only [Matrix.add_apply, Matrix.smul_apply, one_apply_eq, smul_eq_mul, empCov_diag]
  field_simp
  ring

omit [DecidableEq ι] in
/-- Scaling rows and columns keeps a matrix positive definite. -/
theorem scaled_quad (A : Matrix ι ι ℝ) (d x : ι → ℝ) : x ⬝ᵥ (Matrix.of fun i j => A i j / (d i * d j)) *ᵥ x = (fun i => x i / d i) ⬝ᵥ A *ᵥ (fun i => x i / d i) := by
  simp only [dotProduct, mulVec, Finset.mul_sum, of_apply]
  refine Finset.sum_congr rfl fun i _ => Finset.sum_congr rfl fun j _ => ?_
  rw [div_eq_mul_inv, mul_inv, div_eq_mul_inv, div_eq_mul_inv]
  ring

/-- C294: if every column varies the matrices of both methods are valid covariance matrices, even positive definite, so that sampling with them does not fail. -/
theorem C294_valid (m : ℕ) (e : ℕ → ι → ℝ) (h : Varying m e) : (Matrix.of (vanilla m e)).PosDef ∧ (Matrix.of (shrunk m e)).PosDef := by
  constructor
  · refine PosDef.of_dotProduct_mulVec_pos ?_ ?_
    · ext i j
      simp only [conjTranspose_apply, star_trivial, of_apply]
      unfold vanilla
      have : empCov m e j i = empCov m e i j := by
        unfold empCov
        congr 1
        exact Finset.sum_congr rfl fun r _ => mul_comm _ _
      rw [this, mul_comm (sd m e j)]
      simp only [eq_comm]
    · intro x hx
      have hsplit : (Matrix.of (vanilla m e) : Matrix ι ι ℝ) = (Matrix.of fun i j => empCov m e i j / (sd m e i * sd m e j)) + (1 / 1000000 : ℝ) • (1 : Matrix ι ι ℝ) := by
        ext i j
        simp only [of_apply, Matrix.add_apply, Matrix.smul_apply, one_apply, smul_eq_mul]
        unfold vanilla
        split_ifs <;> ring
      rw [hsplit, star_trivial, add_mulVec, smul_mulVec, one_mulVec, dotProduct_add, dotProduct_smul, scaled_quad, quad_empCov, smul_eq_mul]
      have h1 : 0 < x ⬝ᵥ x := by
        have := dotProduct_star_self_pos_iff.2 hx
        simpa using this
      have h2 := Recon.variance_nonneg m (fun r => ∑ i, x i / sd m e i * e r i)
      positivity
  · refine PosDef.of_dotProduct_mulVec_pos ?_ ?_
    · ext i j
      simp only [conjTranspose_apply, star_trivial, of_apply]
      unfold shrunk
      have := congrFun (congrFun (shrunk_transpose m e) i) j
      rw [transpose_apply] at this
      rw [this, mul_comm (sd m e j)]
    · intro x hx
      obtain ⟨i, hi⟩ : ∃ i, x i ≠ 0 := by
        by_contra hne
        push Not at hne
        exact hx (funext hne)
      have hpd := shrunk_posDef m e ⟨i, h i⟩
      have hne : (fun i => x i / sd m e i) ≠ 0 := fun h0 => hi (by
        have := congrFun h0 i
        simpa [(h.sd_pos i).ne'] using this)
      have h3 := hpd.dotProduct_mulVec_pos hne
      rw [star_trivial] at h3 ⊢
      rw [← scaled_quad] at h3
      exact h3

end

theorem Phi_sub_le (a b c : ℝ) (hab : a ≤ b) (hc : ∀ x ∈ Set.Ioc a b, gaussianPDFReal 0 1 x ≤ c) : Phi b - Phi a ≤ c * (b - a) := by
  have hsplit : Phi b - Phi a = (gaussianReal 0 1).real (Set.Ioc a b) := by
    rw [Phi_eq, Phi_eq, ← Set.Iic_union_Ioc_eq_Iic hab, measureReal_union (Set.Iic_disjoint_Ioc le_rfl) measurableSet_Ioc]
    ring
  rw [hsplit, measureReal_def, gaussianReal_apply_eq_integral 0 one_ne_zero, ENNReal.toReal_ofReal (setIntegral_nonneg measurableSet_Ioc fun x _ => gaussianPDFReal_nonneg _ _ _)]
  calc ∫ x in Set.Ioc a b, gaussianPDFReal 0 1 x ≤ ∫ _ in Set.Ioc a b, c :=
        setIntegral_mono_on (integrable_gaussianPDFReal 0 1).integrableOn (by simp) measurableSet_Ioc hc
    _ = c * (b - a) := by
      rw [setIntegral_const, smul_eq_mul, measureReal_def, Real.volume_Ioc, ENNReal.toReal_ofReal (by linarith)]
      ring

/-- The normal density times the distance from zero is at most one half. -/
theorem pdf_mul_le (u x : ℝ) (hu : 0 ≤ u) (hx : u ≤ |x|) : gaussianPDFReal 0 1 x * u ≤ 1 / 2 := by
  rw [gaussianPDFReal_def]
  simp only [sub_zero, NNReal.coe_one, mul_one]
  have h1 : 2 ≤ Real.sqrt (2 * Real.pi) := Real.le_sqrt_of_sq_le (by have := Real.pi_gt_three; linarith)
  have h2 : (Real.sqrt (2 * Real.pi))⁻¹ ≤ 1 / 2 := by
    rw [one_div]
    exact inv_anti₀ two_pos h1
  have h3 : Real.exp (-x ^ 2 / 2) * u ≤ 1 := by
    have h4 : Real.exp (-x ^ 2 / 2) * |x| ≤ 1 := by
      have h5 : |x| ≤ Real.exp (x ^ 2 / 2) := by
        have := Real.add_one_le_exp (x ^ 2 / 2)
        nlinarith [sq_abs x, sq_nonneg (|x| - 1)]
      rw [show -x ^ 2 / 2 = -(x ^ 2 / 2) by ring, Real.exp_neg, inv_mul_le_iff₀ (Real.exp_pos _), mul_one]
      exact h5
    exact (mul_le_mul_of_nonneg_left hx (Real.exp_pos _).le).trans h4
  have h6 : 0 ≤ Real.exp (-x ^ 2 / 2) * u := by positivity
  have h7 : 0 ≤ (Real.sqrt (2 * Real.pi))⁻¹ := by positivity
  calc _ = (Real.sqrt (2 * Real.pi))⁻¹ * (Real.exp (-x ^ 2 / 2) * u) := by ring
    _ ≤ 1 / 2 * 1 := mul_le_mul h2 h3 h6 (by norm_num)
    _ = 1 / 2 := by ring

/-- Dividing by the square root of a number slightly above one hardly changes the probability. -/
theorem Phi_div_close (z δ : ℝ) (hδ : 0 ≤ δ) : |Phi (z / Real.sqrt (1 + δ)) - Phi z| ≤ δ / 4 := by
  set w := Real.sqrt (1 + δ) with hw
  have hw1 : 1 ≤ w := Real.one_le_sqrt.2 (by linarith)
  have hw2 : w - 1 ≤ δ / 2 := by
    have : w ^ 2 = 1 + δ := Real.sq_sqrt (by linarith)
    nlinarith [sq_nonneg (w - 1)]
  have hw0 : 0 < w := by linarith
  have hz : z = z / w * w := by field_simp
  set u := z / w with hu
  rcases le_total 0 u with h0 | h0
  · have hle : u ≤ z := by rw [hz]; nlinarith
    rcases h0.eq_or_lt with h | h
    · rw [hz, ← h]; simp; positivity
    have := Phi_sub_le u z (1 / 2 / u) hle (fun x hx => by
      rw [le_div_iff₀ h]
      exact pdf_mul_le u x h0 (hx.1.le.trans (le_abs_self x)))
    have hm := Phi_strictMono.monotone hle
    rw [abs_sub_comm, abs_of_nonneg (by linarith)]
    have h8 : 1 / 2 / u * (z - u) = 1 / 2 * (w - 1) := by
      rw [hz]
      field_simp
    linarith
  · have hle : z ≤ u := by rw [hz]; nlinarith
    rcases h0.eq_or_lt with h | h
    · rw [hz, h]; simp; positivity
    have := Phi_sub_le z u (1 / 2 / -u) hle (fun x hx => by
      rw [le_div_iff₀ (by linarith)]
      exact pdf_mul_le (-u) x (by linarith) (by
        have := neg_abs_le x
        have := hx.2
        linarith))
    have hm := Phi_strictMono.monotone hle
    rw [abs_of_nonneg (by linarith)]
    have h8 : 1 / 2 / -u * (u - z) = 1 / 2 * (w - 1) := by
      have : u ≠ 0 := h.ne
      rw [hz]
      field_simp
      ring
    linarith

variable {Ω : Type} [MeasurableSpace Ω]

/-- C294 (`vanilla`): the probability of falling below a quantile is the level up to one in a million. -/
theorem C294_vanilla {dim : ℕ} (μ : Measure Ω) [IsProbabilityMeasure μ] (levels : List ℝ) (quantiles : List (List (List ℝ))) (additional : Bool) (obs : Option (List ℝ))
    (pars : Pars (Matrix (Fin dim) (Fin dim) ℝ)) (rvs : Ω → Nat → Matrix (Fin dim) (Fin dim) ℝ → Nat → Nat → Nat → Nat → Nat → ℝ) (hr : Normals μ rvs) (ini : Ω → Nat → Nat → ℝ)
    (noise : Ω → Nat → Nat → Nat → ℝ) (n : ℕ) (hours : List ℕ) (t : ℕ) (s : Fin dim) (k : ℕ) (j : ℕ) (z y : ℝ) (m : ℕ) (e : ℕ → Fin dim → ℝ) (he : Varying m e)
    (hs : Situation levels quantiles obs pars n hours t s k (Matrix.of (vanilla m e)) j z y) (a : ℝ) (ha : levels[j]? = some a) :
    |μ.real (below levels quantiles additional obs pars rvs ini noise n hours t s k y) - a| ≤ 1 / 1000000 := by
  rw [C293_calibration μ levels quantiles additional obs pars rvs hr ini noise n hours t s k _ j z y hs, of_apply, vanilla_diag he]
  have := hs.level
  rw [ha] at this
  rw [Option.some.inj this]
  exact (Phi_div_close z (1 / 1000000) (by norm_num)).trans (by norm_num)

/-- C294 (`shrunk`, defect): for every level other than one half the scenarios of a step are calibrated exactly if the variance of this step is the mean of the variances of all
steps. A step of less than average variance gets too wide scenarios, a step of more than average variance too narrow ones. -/
theorem C294_shrunk {dim : ℕ} (μ : Measure Ω) [IsProbabilityMeasure μ] (levels : List ℝ) (quantiles : List (List (List ℝ))) (additional : Bool) (obs : Option (List ℝ))
    (pars : Pars (Matrix (Fin dim) (Fin dim) ℝ)) (rvs : Ω → Nat → Matrix (Fin dim) (Fin dim) ℝ → Nat → Nat → Nat → Nat → Nat → ℝ) (hr : Normals μ rvs) (ini : Ω → Nat → Nat → ℝ)
    (noise : Ω → Nat → Nat → Nat → ℝ) (n : ℕ) (hours : List ℕ) (t : ℕ) (s : Fin dim) (k : ℕ) (j : ℕ) (z y : ℝ) (m : ℕ) (e : ℕ → Fin dim → ℝ) (he : Varying m e)
    (hs : Situation levels quantiles obs pars n hours t s k (Matrix.of (shrunk m e)) j z y) (a : ℝ) (ha : levels[j]? = some a) (hhalf : a ≠ 1 / 2) :
    (μ.real (below levels quantiles additional obs pars rvs ini noise n hours t s k y) = a ↔ Recon.variance m (fun r => e r s) = meanVar m e) ∧
    (Recon.variance m (fun r => e r s) < meanVar m e →
      |μ.real (below levels quantiles additional obs pars rvs ini noise n hours t s k y) - 1 / 2| < |a - 1 / 2|) ∧
    (meanVar m e < Recon.variance m (fun r => e r s) →
      |a - 1 / 2| < |μ.real (below levels quantiles additional obs pars rvs ini noise n hours t s k y) - 1 / 2|) := by
  have hP := C293_calibration μ levels quantiles additional obs pars rvs hr ini noise n hours t s k _ j z y hs
  rw [of_apply] at hP
  have hlev := hs.level
  rw [ha] at hlev
  have haz : a = Phi z := Option.some.inj hlev
  rw [hP, haz]
  rw [haz] at hhalf
  have hz0 : z ≠ 0 := fun h => hhalf (by rw [h, Phi_zero])
  have hvp := he.variance_pos s
  have hpos : 0 < shrunk m e s s := hs.var_pos
  have hd := shrunk_diag he s
  set V := Recon.variance m (fun r => e r s)
  set M := meanVar m e
  set w := Real.sqrt (shrunk m e s s) with hw
  have hw0 : 0 < w := Real.sqrt_pos.2 hpos
  have hw2 : w ^ 2 = 9 / 10 + 1 / 10 * (M / V) := by rw [hw, Real.sq_sqrt hpos.le, hd]
  have hM : M = M / V * V := by field_simp
  -- the further from zero, the further from one half
  have far : ∀ a b : ℝ, (0 ≤ a ∧ a < b) ∨ (b < a ∧ a ≤ 0) → |Phi a - 1 / 2| < |Phi b - 1 / 2| := by
    intro a b hab
    rw [← Phi_zero]
    rcases hab with ⟨h1, h2⟩ | ⟨h1, h2⟩
    · have e1 := Phi_strictMono.monotone h1
      have e2 := Phi_strictMono h2
      rw [abs_of_nonneg (by linarith), abs_of_nonneg (by linarith)]
      linarith
    · have e1 := Phi_strictMono.monotone h2
      have e2 := Phi_strictMono h1
      rw [abs_of_nonpos (by linarith), abs_of_nonpos (by linarith)]
      linarith
  refine ⟨?_, ?_, ?_⟩
  · rw [Phi_strictMono.injective.eq_iff]
    constructor
    · intro h
      have hw1 : w = 1 := by
        rw [div_eq_iff hw0.ne'] at h
        exact mul_left_cancel₀ hz0 (by linarith)
      rw [hw1] at hw2
      have : M / V = 1 := by linarith
      rw [hM, this, one_mul]
    · intro h
      rw [← h, div_self hvp.ne'] at hw2
      have : w = 1 := by nlinarith
      rw [this, div_one]
  · intro h
    have h1 : 1 < M / V := (one_lt_div hvp).2 h
    have hw1 : 1 < w := by nlinarith
    refine far _ _ ?_
    rcases lt_or_gt_of_ne hz0 with hz | hz
    · exact Or.inr ⟨by rw [lt_div_iff₀ hw0]; nlinarith, div_nonpos_of_nonpos_of_nonneg hz.le hw0.le⟩
    · exact Or.inl ⟨(div_pos hz hw0).le, by rw [div_lt_iff₀ hw0]; nlinarith⟩
  · intro h
    have h1 : M / V < 1 := (div_lt_one hvp).2 h
    have hw1 : w < 1 := by nlinarith
    refine far _ _ ?_
    rcases lt_or_gt_of_ne hz0 with hz | hz
    · exact Or.inr ⟨by rw [div_lt_iff₀ hw0]; nlinarith, hz.le⟩
    · exact Or.inl ⟨hz.le, by rw [lt_div_iff₀ hw0]; nlinarith⟩

end PyF.Copula
