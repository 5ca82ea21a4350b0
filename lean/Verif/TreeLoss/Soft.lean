import Verif.TreeLoss.SoftModel
import Verif.TreeLoss.Props
import Mathlib.Algebra.Order.Chebyshev

/-! C302: the smooth loss of a scenario tree. -/

namespace PyF.TreeLoss

variable {n L N T : Nat}

theorem expDist_pos (idx : Fin T → Fin L → Fin n) (scens : Fin T → Fin N → ℝ) (v : Fin n → ℝ) (k : Fin N) (p : Fin L) : 0 < expDist idx scens v k p := Real.exp_pos _

theorem expSum_pos [NeZero L] (idx : Fin T → Fin L → Fin n) (scens : Fin T → Fin N → ℝ) (v : Fin n → ℝ) (k : Fin N) : 0 < ∑ q, expDist idx scens v k q :=
  Finset.sum_pos (fun p _ => expDist_pos idx scens v k p) Finset.univ_nonempty

theorem softWeight_pos [NeZero L] (idx : Fin T → Fin L → Fin n) (scens : Fin T → Fin N → ℝ) (v : Fin n → ℝ) (k : Fin N) (p : Fin L) : 0 < softWeight idx scens v k p :=
  div_pos (expDist_pos idx scens v k p) (expSum_pos idx scens v k)

theorem softWeight_sum [NeZero L] (idx : Fin T → Fin L → Fin n) (scens : Fin T → Fin N → ℝ) (v : Fin n → ℝ) (k : Fin N) : ∑ p, softWeight idx scens v k p = 1 := by
  unfold softWeight
  rw [← Finset.sum_div, div_self (expSum_pos idx scens v k).ne']

/-- One scenario: the weighted mean of the distances. -/
theorem soft_bounds [NeZero L] (idx : Fin T → Fin L → Fin n) (scens : Fin T → Fin N → ℝ) (v : Fin n → ℝ) (k : Fin N) :
    nearest idx scens v k ≤ ∑ p, softWeight idx scens v k p * dist idx scens v k p ∧
      ∑ p, softWeight idx scens v k p * dist idx scens v k p ≤ (∑ p, dist idx scens v k p) / L ∧
      (∑ p, softWeight idx scens v k p * dist idx scens v k p = nearest idx scens v k ↔ ∀ p, dist idx scens v k p = nearest idx scens v k) := by
  have hmin : ∀ p, nearest idx scens v k ≤ dist idx scens v k p := fun p => Finset.inf'_le _ (Finset.mem_univ p)
  have hs := softWeight_sum idx scens v k
  have hw := softWeight_pos idx scens v k
  have hdiff : ∑ p, softWeight idx scens v k p * dist idx scens v k p - nearest idx scens v k = ∑ p, softWeight idx scens v k p * (dist idx scens v k p - nearest idx scens v k) := by
    simp_rw [mul_sub]
    rw [Finset.sum_sub_distrib, ← Finset.sum_mul, hs, one_mul]
  have hnn : ∀ p ∈ Finset.univ, 0 ≤ softWeight idx scens v k p * (dist idx scens v k p - nearest idx scens v k) := fun p _ => mul_nonneg (hw p).le (sub_nonneg.2 (hmin p))
  refine ⟨?_, ?_, ?_⟩
  · have := Finset.sum_nonneg hnn
    rw [← hdiff] at this
    linarith
  · have hav : Antivary (softWeight idx scens v k) (dist idx scens v k) := by
      intro p q hpq
      unfold softWeight expDist
      refine div_le_div_of_nonneg_right (Real.exp_le_exp.2 ?_) (expSum_pos idx scens v k).le
      have h0 := dist_nonneg idx scens v k p
      exact div_le_div_of_nonneg_left (by norm_num) (by linarith) (by linarith)
    have h1 := hav.card_mul_sum_le_sum_mul_sum
    rw [hs, one_mul, Fintype.card_fin] at h1
    have hL : (0 : ℝ) < L := by exact_mod_cast Nat.pos_of_ne_zero (NeZero.ne L)
    rw [le_div_iff₀ hL]
    linarith
  · rw [← sub_eq_zero, hdiff, Finset.sum_eq_zero_iff_of_nonneg hnn]
    constructor
    · intro h p
      have := (mul_eq_zero.1 (h p (Finset.mem_univ p))).resolve_left (hw p).ne'
      linarith
    · intro h p _
      rw [h p, sub_self, mul_zero]

/-- C302 (bounds): the smooth loss lies between the loss of the nearest paths and the mean over all paths. -/
theorem C302_bounds [NeZero L] (idx : Fin T → Fin L → Fin n) (scens : Fin T → Fin N → ℝ) (v : Fin n → ℝ) :
    metricLoss idx scens v ≤ softLoss idx scens v ∧ softLoss idx scens v ≤ ∑ k, (∑ p, (∑ t, (scens t k - v (idx t p)) ^ 2) / T) / L :=
  ⟨Finset.sum_le_sum fun k _ => (soft_bounds idx scens v k).1, Finset.sum_le_sum fun k _ => (soft_bounds idx scens v k).2.1⟩

/-- C302 (equality): it equals the loss of the nearest paths exactly if for every scenario all paths are equally far. -/
theorem C302_equal [NeZero L] (idx : Fin T → Fin L → Fin n) (scens : Fin T → Fin N → ℝ) (v : Fin n → ℝ) :
    softLoss idx scens v = metricLoss idx scens v ↔ ∀ k p q, (∑ t, (scens t k - v (idx t p)) ^ 2) / (T : ℝ) = (∑ t, (scens t k - v (idx t q)) ^ 2) / (T : ℝ) := by
  have h : softLoss idx scens v = metricLoss idx scens v ↔ ∀ k, ∑ p, softWeight idx scens v k p * dist idx scens v k p = nearest idx scens v k := by
    unfold softLoss metricLoss
    constructor
    · intro h k
      exact ((Finset.sum_eq_sum_iff_of_le fun k _ => (soft_bounds idx scens v k).1).1 h.symm k (Finset.mem_univ k)).symm
    · intro h
      exact Finset.sum_congr rfl fun k _ => h k
  rw [h]
  constructor
  · intro h k p q
    have := (soft_bounds idx scens v k).2.2.1 (h k)
    exact (this p).trans (this q).symm
  · intro h k
    obtain ⟨q, hq⟩ := nearest_attained idx scens v k
    refine (soft_bounds idx scens v k).2.2.2 fun p => ?_
    rw [hq]
    exact h k p q

/-- C302 (zero): a tree whose paths are exactly the scenarios has a positive smooth loss as soon as two paths differ: the loss is zero only if all paths equal every scenario. -/
theorem C302_zero [NeZero L] (idx : Fin T → Fin L → Fin n) (scens : Fin T → Fin N → ℝ) (v : Fin n → ℝ) (hT : 0 < T) :
    softLoss idx scens v = 0 ↔ ∀ k p t, scens t k = v (idx t p) := by
  obtain ⟨_, _, h0, hz⟩ := C224_loss idx scens v hT
  have hb := (C302_bounds idx scens v).1
  have hT' : (0 : ℝ) < T := by exact_mod_cast hT
  constructor
  · intro h k p t
    have hm : metricLoss idx scens v = 0 := le_antisymm (by linarith) h0
    obtain ⟨q, hq⟩ := hz.1 hm k
    have h1 := (C302_equal idx scens v).1 (by rw [h, hm]) k p q
    have h2 : ∑ t, (scens t k - v (idx t q)) ^ 2 = 0 := Finset.sum_eq_zero fun t _ => by rw [hq t, sub_self]; ring
    rw [h2, zero_div, div_eq_zero_iff] at h1
    have h3 := h1.resolve_right hT'.ne'
    have h4 := (Finset.sum_eq_zero_iff_of_nonneg (fun t _ => sq_nonneg _)).1 h3 t (Finset.mem_univ t)
    have := pow_eq_zero_iff (two_ne_zero) |>.1 h4
    linarith
  · intro h
    unfold softLoss
    refine Finset.sum_eq_zero fun k _ => Finset.sum_eq_zero fun p _ => ?_
    have : dist idx scens v k p = 0 := by
      unfold dist
      rw [Finset.sum_eq_zero fun t _ => by rw [h k p t, sub_self]; ring, zero_div]
    rw [this, mul_zero]

end PyF.TreeLoss
