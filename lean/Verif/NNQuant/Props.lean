import Verif.NNQuant.Model
import Mathlib.Order.Interval.Set.Basic
import Mathlib.Analysis.SpecialFunctions.Exp
import Mathlib.Algebra.BigOperators.Field
import Mathlib.Tactic.Linarith
import Mathlib.Tactic.FieldSimp
import Mathlib.Tactic.Ring
import Mathlib.Tactic.Positivity

namespace PyF.NNQuant

open PyF

/-! ### Specification -/

/-- What is used of the standard normal quantile function. -/
structure NormalQuantile (z : ℝ → ℝ) : Prop where
  mono : ∀ p q, 0 < p → p < q → q < 1 → z p < z q
  sym : ∀ q, 0 < q → q < 1 → z (1 - q) = -z q

/-- Quantile of the normal distribution with given mean and standard deviation. -/
noncomputable def normalQ (z : ℝ → ℝ) (mean sd q : ℝ) : ℝ := mean + sd * z q

theorem z_half {z : ℝ → ℝ} (hz : NormalQuantile z) : z (1 / 2) = 0 := by
  have h := hz.sym (1 / 2) (by norm_num) (by norm_num)
  norm_num at h
  linarith

theorem z_zero_iff {z : ℝ → ℝ} (hz : NormalQuantile z) (q : ℝ) (h0 : 0 < q) (h1 : q < 1) : z q = 0 ↔ q = 1 / 2 := by
  constructor
  · intro h
    rcases lt_trichotomy q (1 / 2) with hq | hq | hq
    · have := hz.mono q (1 / 2) h0 hq (by norm_num)
      rw [z_half hz, h] at this; exact absurd this (lt_irrefl _)
    · exact hq
    · have := hz.mono (1 / 2) q (by norm_num) hq h1
      rw [z_half hz, h] at this; exact absurd this (lt_irrefl _)
  · rintro rfl; exact z_half hz

/-! ### The second output is a variance -/

theorem mlMean_eq (n : ℕ) (hn : 0 < n) (yhat y : Fin n → ℝ) (v : ℝ) : mlMean n yhat y v = ((∑ i, (yhat i - y i) ^ 2) / n) / v + Real.log v := by
  have hn' : (n : ℝ) ≠ 0 := by exact_mod_cast hn.ne'
  unfold mlMean mlLoss
  rw [Finset.sum_add_distrib, ← Finset.sum_div, Finset.sum_const, Finset.card_univ, Fintype.card_fin, nsmul_eq_mul]
  field_simp

/-- **C131.** The loss makes the second output a variance: over a batch with a constant second output `v > 0`, it is smallest exactly at the mean squared error. -/
theorem C131_second_output_is_variance (n : ℕ) (hn : 0 < n) (yhat y : Fin n → ℝ) (hpos : 0 < (∑ i, (yhat i - y i) ^ 2) / n) (v : ℝ) (hv : 0 < v) :
    mlMean n yhat y ((∑ i, (yhat i - y i) ^ 2) / n) ≤ mlMean n yhat y v ∧
    (mlMean n yhat y v = mlMean n yhat y ((∑ i, (yhat i - y i) ^ 2) / n) ↔ v = (∑ i, (yhat i - y i) ^ 2) / n) := by
  rw [mlMean_eq n hn, mlMean_eq n hn]
  generalize (∑ i, (yhat i - y i) ^ 2) / (n : ℝ) = S at *
  have ht : 0 < S / v := div_pos hpos hv
  have hlog : Real.log (S / v) = Real.log S - Real.log v := Real.log_div hpos.ne' hv.ne'
  rw [div_self hpos.ne']
  refine ⟨?_, fun h => ?_, ?_⟩
  · have := Real.log_le_sub_one_of_pos ht
    linarith
  · by_contra hne
    have h1 : S / v ≠ 1 := fun h2 => hne (by rw [div_eq_one_iff_eq hv.ne'] at h2; exact h2.symm)
    have := Real.log_lt_sub_one_of_pos ht h1
    linarith
  · rintro rfl; rw [div_self hpos.ne']

/-! ### Quantiles with a normalised target -/

/-- **C132.** Defect: with `normalize_target` (the default) the mean of the target is added to the standard deviation, so the quantiles of the predicted distribution are
returned only if the target has mean zero in the training data, or for the median. -/
theorem C132_normalised_iff {z : ℝ → ℝ} (hz : NormalQuantile z) (c : Scaler) (m v q : ℝ) (hv : 0 ≤ v) (h0 : 0 < q) (h1 : q < 1) :
    quantile z (some c) m v q = some (normalQ z (c.inverse m) (Real.sqrt v * c.scale) q) ↔ c.mean = 0 ∨ q = 1 / 2 := by
  unfold quantile sigmaOut muOut npSqrt normalQ
  simp only [if_pos hv, Option.map_some, Option.some.injEq, Scaler.inverse]
  rw [← z_zero_iff hz q h0 h1, ← mul_eq_zero]
  constructor <;> intro h <;> linarith

/-- **C132.** The error is the mean of the target times the standard normal quantile. -/
theorem C132_error (z : ℝ → ℝ) (c : Scaler) (m v q : ℝ) (hv : 0 ≤ v) :
    quantile z (some c) m v q = some (normalQ z (c.inverse m) (Real.sqrt v * c.scale) q + c.mean * z q) := by
  unfold quantile sigmaOut muOut npSqrt normalQ
  simp only [if_pos hv, Option.map_some, Option.some.injEq, Scaler.inverse]
  ring

/-- **C132.** Defect: and they cross as soon as the mean of the target is below minus the predicted deviation. -/
theorem C132_crossing {z : ℝ → ℝ} (hz : NormalQuantile z) (c : Scaler) (m v p q : ℝ) (hv : 0 ≤ v) (h0 : 0 < p) (hpq : p < q) (h1 : q < 1) (a b : ℝ)
    (ha : quantile z (some c) m v p = some a) (hb : quantile z (some c) m v q = some b) : a ≤ b ↔ 0 ≤ Real.sqrt v * c.scale + c.mean := by
  rw [C132_error z c m v _ hv] at ha hb
  injection ha with ha; injection hb with hb
  have hlt := hz.mono p q h0 hpq h1
  have e : b - a = (Real.sqrt v * c.scale + c.mean) * (z q - z p) := by rw [← ha, ← hb]; unfold normalQ; ring
  rw [← sub_nonneg, e]
  constructor
  · intro h; exact nonneg_of_mul_nonneg_left h (by linarith)
  · intro h; exact mul_nonneg h (by linarith)

/-- **C132.** A negative second output (nothing prevents it in FFNN and LSTMNN) gives NaN at every level. -/
theorem C132_nan (z : ℝ → ℝ) (c : Scaler) (m v q : ℝ) : quantile z (some c) m v q = none ↔ v < 0 := by
  unfold quantile sigmaOut npSqrt
  by_cases hv : 0 ≤ v
  · simp only [if_pos hv, Option.map_some]
    constructor
    · intro h; cases h
    · intro h; linarith
  · simp only [if_neg hv, Option.map_none, true_iff]
    linarith

/-! ### Quantiles without normalisation -/

/-- **C133.** Defect: without `normalize_target` the variance is used as standard deviation: the quantile is right iff the variance is zero or one, or for the median. -/
theorem C133_unnormalised_iff {z : ℝ → ℝ} (hz : NormalQuantile z) (m v q : ℝ) (hv : 0 ≤ v) (h0 : 0 < q) (h1 : q < 1) :
    quantile z none m v q = some (normalQ z m (Real.sqrt v) q) ↔ v = 0 ∨ v = 1 ∨ q = 1 / 2 := by
  unfold quantile sigmaOut muOut normalQ
  simp only [Option.map_some, Option.some.injEq]
  rw [← z_zero_iff hz q h0 h1]
  have e : v = Real.sqrt v ↔ v = 0 ∨ v = 1 := by
    constructor
    · intro h
      have h2 : v * v = v := by
        have h3 : Real.sqrt v * Real.sqrt v = v := Real.mul_self_sqrt hv
        rw [← h] at h3
        exact h3
      rcases mul_eq_zero.1 (show v * (v - 1) = 0 by linarith) with h3 | h3
      · exact Or.inl h3
      · exact Or.inr (by linarith)
    · rintro (h | h) <;> simp [h]
  rw [← or_assoc, ← e]
  constructor
  · intro h
    have : (v - Real.sqrt v) * z q = 0 := by linarith
    rcases mul_eq_zero.1 this with h2 | h2
    · exact Or.inl (by linarith)
    · exact Or.inr h2
  · rintro (h | h)
    · rw [← h]
    · rw [h]; ring

/-- **C133.** With a negative second output the quantiles decrease with the level. -/
theorem C133_order {z : ℝ → ℝ} (hz : NormalQuantile z) (m v p q : ℝ) (h0 : 0 < p) (hpq : p < q) (h1 : q < 1) (a b : ℝ)
    (ha : quantile z none m v p = some a) (hb : quantile z none m v q = some b) : a ≤ b ↔ 0 ≤ v := by
  unfold quantile sigmaOut muOut at ha hb
  simp only [Option.map_some, Option.some.injEq] at ha hb
  have hlt := hz.mono p q h0 hpq h1
  have e : b - a = v * (z q - z p) := by rw [← ha, ← hb]; ring
  rw [← sub_nonneg, e]
  constructor
  · intro h; exact nonneg_of_mul_nonneg_left h (by linarith)
  · intro h; exact mul_nonneg h (by linarith)

/-- **C133.** The variant used for training plots is right for every non-negative variance. -/
theorem C133_raw (z : ℝ → ℝ) (m v q : ℝ) (hv : 0 ≤ v) : quantileRaw z m v q = some (normalQ z m (Real.sqrt v) q) := by
  unfold quantileRaw npSqrt normalQ
  simp only [if_pos hv, Option.map_some]

/-! ### Structured networks -/

/-- Mean and variance of the log-normal distribution. -/
noncomputable def lnMeanOf (mu var : ℝ) : ℝ := Real.exp (mu + var / 2)
noncomputable def lnVarOf (mu var : ℝ) : ℝ := (Real.exp var - 1) * (lnMeanOf mu var) ^ 2

theorem softVar_pos (t : ℝ) : 0 < softVar t := by
  unfold softVar
  have := Real.log_pos (show 1 < 1 + Real.exp t by linarith [Real.exp_pos t])
  positivity

theorem structSigma_pos (v : ℝ) (hv : 0 < v) : structSigma v = Real.sqrt v := by
  unfold structSigma
  rw [Real.sign_of_pos hv, abs_of_pos hv, one_mul]

/-- **C134.** The objective of a structured network: with the normal distribution its quantiles are those of the predicted mean and variance, whatever the network puts out. -/
theorem C134_normal (z : ℝ → ℝ) (o t q : ℝ) : structNormal z o (softVar t) q = normalQ z o (Real.sqrt (softVar t)) q := by
  unfold structNormal normalQ
  rw [structSigma_pos _ (softVar_pos t), abs_of_nonneg (Real.sqrt_nonneg _)]

theorem lnVar_exp (o s : ℝ) (ho : o ≠ 0) : Real.exp (lnVar o s) = 1 + s ^ 2 / o ^ 2 := by
  unfold lnVar
  exact Real.exp_log (by positivity)

theorem lnMu_exp (o s : ℝ) (ho : o ≠ 0) : Real.exp (lnMu o s) = o ^ 2 / Real.sqrt (s ^ 2 + o ^ 2) := by
  unfold lnMu
  exact Real.exp_log (by positivity)

/-- **C134.** With the log-normal distribution the parameters match the predicted variance and the absolute value of the predicted mean. -/
theorem C134_moments (o s : ℝ) (ho : o ≠ 0) : lnMeanOf (lnMu o s) (lnVar o s) = |o| ∧ lnVarOf (lnMu o s) (lnVar o s) = s ^ 2 := by
  have hsq : (lnMeanOf (lnMu o s) (lnVar o s)) ^ 2 = o ^ 2 := by
    unfold lnMeanOf
    rw [← Real.exp_nat_mul]
    have : ((2 : ℕ) : ℝ) * (lnMu o s + lnVar o s / 2) = lnMu o s + lnMu o s + lnVar o s := by push_cast; ring
    rw [this, Real.exp_add, Real.exp_add, lnMu_exp o s ho, lnVar_exp o s ho]
    have hp : 0 < s ^ 2 + o ^ 2 := by positivity
    have h2 : Real.sqrt (s ^ 2 + o ^ 2) * Real.sqrt (s ^ 2 + o ^ 2) = s ^ 2 + o ^ 2 := Real.mul_self_sqrt hp.le
    rw [div_mul_div_comm, h2]
    field_simp
    ring
  refine ⟨?_, ?_⟩
  · rw [← abs_of_pos (show 0 < lnMeanOf (lnMu o s) (lnVar o s) from Real.exp_pos _)]
    exact (sq_eq_sq_iff_abs_eq_abs _ _).1 hsq
  · unfold lnVarOf
    rw [hsq, lnVar_exp o s ho]
    field_simp
    ring

theorem structLogNormal_eq (z : ℝ → ℝ) (o t q : ℝ) : structLogNormal z o (softVar t) q =
    Real.exp (lnMu o (Real.sqrt (softVar t)) + Real.sqrt (lnVar o (Real.sqrt (softVar t))) * z q) := by
  have hv := softVar_pos t
  have hs : 0 < Real.sqrt (softVar t) := Real.sqrt_pos.2 hv
  unfold structLogNormal
  rw [structSigma_pos _ hv, Real.sign_of_pos hs, if_neg (by norm_num), if_pos rfl, abs_of_pos hs]

/-- **C134.** The log-normal quantiles increase with the level. -/
theorem C134_monotone {z : ℝ → ℝ} (hz : NormalQuantile z) (o t p q : ℝ) (ho : o ≠ 0) (h0 : 0 < p) (hpq : p < q) (h1 : q < 1) :
    structLogNormal z o (softVar t) p < structLogNormal z o (softVar t) q := by
  rw [structLogNormal_eq, structLogNormal_eq, Real.exp_lt_exp]
  have hs : 0 < Real.sqrt (softVar t) := Real.sqrt_pos.2 (softVar_pos t)
  have hvar : 0 < lnVar o (Real.sqrt (softVar t)) := by
    unfold lnVar
    apply Real.log_pos
    have : 0 < Real.sqrt (softVar t) ^ 2 / o ^ 2 := by positivity
    linarith
  have := mul_lt_mul_of_pos_left (hz.mono p q h0 hpq h1) (Real.sqrt_pos.2 hvar)
  linarith

/-- **C134.** Defect: a negative predicted objective has the quantiles of its absolute value, all positive. -/
theorem C134_negative_objective (z : ℝ → ℝ) (o t q : ℝ) :
    structLogNormal z o (softVar t) q = structLogNormal z (-o) (softVar t) q ∧ 0 < structLogNormal z o (softVar t) q := by
  constructor
  · rw [structLogNormal_eq, structLogNormal_eq]
    unfold lnMu lnVar
    rw [neg_sq]
  · rw [structLogNormal_eq]; exact Real.exp_pos _

/-- **C135.** Defect: a probabilistic structured network with `normalize_target` (the default) raises ValueError on every input except a single row with a single target. -/
theorem C135_structured_normalised (N n : ℕ) (hn : 0 < n) : structShapes N n = .ok () ↔ N = 1 ∧ n = 1 := by
  unfold structShapes inverseShape
  by_cases h : (n + 1) / 2 = n ∨ n = 1
  · have h1 : n = 1 := by omega
    subst h1
    simp
  · rw [if_neg h]
    simp only [reduceCtorEq, false_iff]
    omega

/-- **C135.** ... -/
theorem C135_error (N n : ℕ) (e : PyErr) (h : structShapes N n = .error e) : e = .valueError := by
  unfold structShapes inverseShape at h
  split_ifs at h
  · simp only at h
    split_ifs at h <;> simp_all
  all_goals simp_all

end PyF.NNQuant
