import Verif.ReconCov.Model
import Verif.Recon.Props
import Mathlib.Data.Fintype.BigOperators
import Mathlib.LinearAlgebra.Matrix.PosDef
import Mathlib.Tactic.LinearCombination

namespace PyF.Recon
open PyF Matrix

/-- Penrose's equations. -/
structure Penrose {ι : Type} [Fintype ι] (A B : Matrix ι ι ℝ) : Prop where
  aba : A * B * A = A
  bab : B * A * B = B
  ab : (A * B)ᵀ = A * B
  ba : (B * A)ᵀ = B * A

/-- The routine returns the pseudo-inverse of every symmetric matrix. -/
def IsPInv (pinv : PInv) : Prop := ∀ (ι : Type) [Fintype ι] [DecidableEq ι] (A : Matrix ι ι ℝ), Aᵀ = A → Penrose A (pinv ι A)

section
variable {ι : Type} [Fintype ι] [DecidableEq ι]

theorem Penrose.eq_inv {A B : Matrix ι ι ℝ} (h : Penrose A B) (hA : IsUnit A.det) : B = A⁻¹ := by
  have h1 : A * B = 1 := by
    have := h.aba
    have h2 : A * B * A * A⁻¹ = A * A⁻¹ := by rw [this]
    rwa [Matrix.mul_assoc, Matrix.mul_nonsing_inv _ hA, Matrix.mul_one] at h2
  exact (Matrix.inv_eq_right_inv h1).symm

theorem Penrose.eq_zero {B : Matrix ι ι ℝ} (h : Penrose 0 B) : B = 0 := by
  have := h.bab
  simpa using this.symm

/-- Variance (biased) of the first `n` values. -/
noncomputable def variance (n : Nat) (v : Nat → ℝ) : ℝ := (∑ r ∈ Finset.range n, (v r - (∑ r ∈ Finset.range n, v r) / n) ^ 2) / n

omit [DecidableEq ι] in
/-- The quadratic form of the sample covariance is the variance of the combination. -/
theorem quad_empCov (n : Nat) (e : Nat → ι → ℝ) (a : ι → ℝ) : a ⬝ᵥ empCov n e *ᵥ a = variance n (fun r => ∑ i, a i * e r i) := by
  have hm : (∑ r ∈ Finset.range n, ∑ i, a i * e r i) / n = ∑ i, a i * colMean n e i := by
    rw [Finset.sum_comm, Finset.sum_div]
    refine Finset.sum_congr rfl fun i _ => ?_
    unfold colMean
    rw [← Finset.mul_sum]
    ring
  unfold variance
  rw [hm]
  simp only [dotProduct, mulVec, empCov]
  have : ∀ r, (∑ i, a i * e r i - ∑ i, a i * colMean n e i) ^ 2 = ∑ i, ∑ j, a i * ((e r i - colMean n e i) * (e r j - colMean n e j) * a j) := by
    intro r
    rw [← Finset.sum_sub_distrib, pow_two, Finset.sum_mul_sum]
    refine Finset.sum_congr rfl fun i _ => Finset.sum_congr rfl fun j _ => ?_
    ring
  simp only [this]
  rw [Finset.sum_comm, Finset.sum_div]
  refine Finset.sum_congr rfl fun i _ => ?_
  rw [Finset.sum_comm, Finset.sum_div, Finset.mul_sum]
  refine Finset.sum_congr rfl fun j _ => ?_
  rw [Finset.sum_div, Finset.sum_mul, Finset.mul_sum, Finset.sum_div]
  refine Finset.sum_congr rfl fun r _ => ?_
  ring

theorem variance_nonneg (n : Nat) (v : Nat → ℝ) : 0 ≤ variance n v := by
  unfold variance
  exact div_nonneg (Finset.sum_nonneg fun _ _ => sq_nonneg _) (Nat.cast_nonneg n)

/-- A variance is zero exactly for constant values. -/
theorem variance_eq_zero (n : Nat) (v : Nat → ℝ) : variance n v = 0 ↔ ∀ r < n, ∀ r' < n, v r = v r' := by
  rcases Nat.eq_zero_or_pos n with rfl | hn
  · simp [variance]
  have hn' : (n : ℝ) ≠ 0 := by exact_mod_cast hn.ne'
  unfold variance
  rw [div_eq_zero_iff, or_iff_left hn', Finset.sum_eq_zero_iff_of_nonneg fun _ _ => sq_nonneg _]
  constructor
  · intro h r hr r' hr'
    have h1 := h r (Finset.mem_range.2 hr)
    have h2 := h r' (Finset.mem_range.2 hr')
    rw [pow_eq_zero_iff (by decide)] at h1 h2
    linarith
  · intro h r hr
    rw [pow_eq_zero_iff (by decide)]
    have : ∑ r' ∈ Finset.range n, v r' = n * v r := by
      rw [Finset.sum_congr rfl (g := fun _ => v r) fun r' hr' => h r' (Finset.mem_range.1 hr') r (Finset.mem_range.1 hr)]
      simp
    rw [this, mul_div_cancel_left₀ _ hn', sub_self]

omit [Fintype ι] [DecidableEq ι] in
theorem empCov_diag (n : Nat) (e : Nat → ι → ℝ) (i : ι) : empCov n e i i = variance n (fun r => e r i) := by
  unfold empCov variance colMean
  congr 1
  exact Finset.sum_congr rfl fun r _ => by ring

/-- Mean of the variances of the series. -/
noncomputable def meanVar (n : Nat) (e : Nat → ι → ℝ) : ℝ := (∑ i, variance n (fun r => e r i)) / Fintype.card ι

omit [DecidableEq ι] in
theorem meanVar_nonneg (n : Nat) (e : Nat → ι → ℝ) : 0 ≤ meanVar n e := div_nonneg (Finset.sum_nonneg fun _ _ => variance_nonneg _ _) (Nat.cast_nonneg _)

omit [DecidableEq ι] in
theorem trace_eq (n : Nat) (e : Nat → ι → ℝ) : trace (empCov n e) / Fintype.card ι = meanVar n e := by
  unfold meanVar trace
  simp only [diag_apply, empCov_diag]

/-- The quadratic form of the shrunk covariance. -/
theorem quad_shrunk (n : Nat) (e : Nat → ι → ℝ) (a : ι → ℝ) :
    a ⬝ᵥ shrunkCov n e *ᵥ a = (9 / 10) * variance n (fun r => ∑ i, a i * e r i) + (1 / 10) * meanVar n e * ∑ i, a i ^ 2 := by
  unfold shrunkCov
  rw [trace_eq, add_mulVec, smul_mulVec, smul_mulVec, one_mulVec, dotProduct_add, dotProduct_smul, dotProduct_smul, quad_empCov]
  have : a ⬝ᵥ a = ∑ i, a i ^ 2 := Finset.sum_congr rfl fun i _ => by ring
  rw [this, smul_eq_mul, smul_eq_mul]
  ring

theorem shrunk_symm (n : Nat) (e : Nat → ι → ℝ) : (shrunkCov n e).IsHermitian := by
  ext i j
  simp only [conjTranspose_apply, star_trivial]
  have h : empCov n e j i = empCov n e i j := by
    unfold empCov
    congr 1
    exact Finset.sum_congr rfl fun r _ => by ring
  unfold shrunkCov
  simp only [Matrix.add_apply, Matrix.smul_apply, h, Matrix.one_apply, eq_comm (a := j) (b := i)]

theorem shrunk_transpose (n : Nat) (e : Nat → ι → ℝ) : (shrunkCov n e)ᵀ = shrunkCov n e := by
  have := (shrunk_symm n e).eq
  rwa [conjTranspose_eq_transpose_of_trivial] at this

theorem shrunk_posDef (n : Nat) (e : Nat → ι → ℝ) (h : ∃ i, ∃ r < n, ∃ r' < n, e r i ≠ e r' i) : (shrunkCov n e).PosDef := by
  obtain ⟨i, r, hr, r', hr', hne⟩ := h
  have hv : 0 < variance n (fun r => e r i) := by
    refine lt_of_le_of_ne (variance_nonneg _ _) fun h0 => hne ?_
    exact (variance_eq_zero n _).1 h0.symm r hr r' hr'
  have hm : 0 < meanVar n e := by
    unfold meanVar
    refine div_pos ?_ ?_
    · exact lt_of_lt_of_le hv (Finset.single_le_sum (f := fun i => variance n (fun r => e r i)) (fun _ _ => variance_nonneg _ _) (Finset.mem_univ i))
    · have : 0 < Fintype.card ι := Fintype.card_pos_iff.2 ⟨i⟩
      exact_mod_cast this
  refine Matrix.PosDef.of_dotProduct_mulVec_pos (shrunk_symm n e) fun x hx => ?_
  rw [star_trivial, quad_shrunk]
  have h1 := variance_nonneg n (fun r => ∑ i, x i * e r i)
  have h2 : 0 < ∑ i, x i ^ 2 := by
    obtain ⟨k, hk⟩ := Function.ne_iff.1 hx
    exact lt_of_lt_of_le (pow_pos (abs_pos.2 hk) 2 |>.trans_eq (sq_abs _)) (Finset.single_le_sum (f := fun i => x i ^ 2) (fun _ _ => sq_nonneg _) (Finset.mem_univ k))
  have := mul_pos (mul_pos (by norm_num : (0 : ℝ) < 1 / 10) hm) h2
  linarith

theorem shrunk_zero (n : Nat) (e : Nat → ι → ℝ) (h : ∀ i, ∀ r < n, ∀ r' < n, e r i = e r' i) : shrunkCov n e = 0 := by
  have h0 : empCov n e = 0 := by
    ext i j
    unfold empCov
    rw [Matrix.zero_apply, div_eq_zero_iff]
    left
    refine Finset.sum_eq_zero fun r hr => ?_
    have := (variance_eq_zero n (fun r => e r i)).2 (h i)
    unfold variance at this
    rw [div_eq_zero_iff] at this
    rcases this with h1 | h1
    · have := (Finset.sum_eq_zero_iff_of_nonneg fun _ _ => sq_nonneg _).1 h1 r hr
      rw [pow_eq_zero_iff (by decide)] at this
      unfold colMean
      rw [this, zero_mul]
    · have : n = 0 := by exact_mod_cast h1
      subst this
      simp at hr
  unfold shrunkCov
  rw [h0]
  simp
end

/-- Best linear unbiased combination: among all combinations `a` that agree with row `w` of the summation matrix on coherent vectors, the row of the reconciliation has the least quadratic form. -/
theorem gauss_markov {m n : Type} [Fintype m] [Fintype n] [DecidableEq n] [DecidableEq m] (S : Matrix m n ℝ) (V : Matrix m m ℝ) (hV : V.PosDef) (hd : (Sᵀ * V⁻¹ * S).det ≠ 0) (w : n → ℝ) (a : m → ℝ) (ha : a ᵥ* S = w) :
    (w ᵥ* ((Sᵀ * V⁻¹ * S)⁻¹ * (Sᵀ * V⁻¹))) ⬝ᵥ V *ᵥ (w ᵥ* ((Sᵀ * V⁻¹ * S)⁻¹ * (Sᵀ * V⁻¹))) ≤ a ⬝ᵥ V *ᵥ a := by
  set P := (Sᵀ * V⁻¹ * S)⁻¹ * (Sᵀ * V⁻¹) with hP
  set b := w ᵥ* P with hb
  have hdet : IsUnit V.det := isUnit_iff_ne_zero.2 hV.det_pos.ne'
  have hVt : Vᵀ = V := by
    have := hV.isHermitian.eq
    rwa [conjTranspose_eq_transpose_of_trivial] at this
  have hVit : V⁻¹ᵀ = V⁻¹ := by rw [transpose_nonsing_inv, hVt]
  have hPS : P * S = 1 := left_inv S V⁻¹ hd
  have hbS : b ᵥ* S = w := by rw [hb, vecMul_vecMul, hPS, vecMul_one]
  -- `V b` lies in the range of `S`
  have hMt : (Sᵀ * V⁻¹ * S)ᵀ = Sᵀ * V⁻¹ * S := by
    rw [transpose_mul, transpose_mul, transpose_transpose, hVit, Matrix.mul_assoc]
  have hVb : ∃ c, V *ᵥ b = S *ᵥ c := by
    refine ⟨(Sᵀ * V⁻¹ * S)⁻¹ *ᵥ w, ?_⟩
    rw [hb, ← mulVec_transpose, hP, transpose_mul, transpose_mul, transpose_transpose, hVit, transpose_nonsing_inv, hMt, mulVec_mulVec, mulVec_mulVec, ← Matrix.mul_assoc, ← Matrix.mul_assoc, mul_nonsing_inv _ hdet, Matrix.one_mul]
  obtain ⟨c, hc⟩ := hVb
  have horth : (a - b) ⬝ᵥ V *ᵥ b = 0 := by
    rw [hc, dotProduct_mulVec, sub_vecMul, ha, hbS, sub_self, zero_dotProduct]
  have horth' : b ⬝ᵥ V *ᵥ (a - b) = 0 := by
    rw [dotProduct_mulVec, ← mulVec_transpose, hVt, dotProduct_comm]
    exact horth
  have hsq : a ⬝ᵥ V *ᵥ a = b ⬝ᵥ V *ᵥ b + (a - b) ⬝ᵥ V *ᵥ (a - b) := by
    have : a = b + (a - b) := by abel
    conv_lhs => rw [this]
    rw [mulVec_add, dotProduct_add, add_dotProduct, add_dotProduct, horth, horth']
    ring
  have h3 : 0 ≤ (a - b) ⬝ᵥ V *ᵥ (a - b) := by
    have := hV.posSemidef.dotProduct_mulVec_nonneg (a - b)
    simpa using this
  linarith

end PyF.Recon
