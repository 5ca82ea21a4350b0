import Verif.TreeLoss.Lemmas
import Verif.TreeBuild.Gas
import Mathlib.Algebra.Order.Archimedean.Basic

namespace PyF.TreeLoss
open PyF PyF.TreeBuild

variable {K : Type} [Field K] [LinearOrder K] [IsStrictOrderedRing K] {n L N T : Nat}

/-- C224: the loss is the least total of squared distances over all ways of assigning a path to every scenario; it is zero exactly if every scenario is a path
of the tree. -/
theorem C224_loss [NeZero L] (idx : Fin T → Fin L → Fin n) (scens : Fin T → Fin N → K) (v : Fin n → K) (hT : 0 < T) :
    (∀ a : Fin N → Fin L, metricLoss idx scens v ≤ ∑ k, (∑ t, (scens t k - v (idx t (a k))) ^ 2) / T) ∧
      (∃ a : Fin N → Fin L, metricLoss idx scens v = ∑ k, (∑ t, (scens t k - v (idx t (a k))) ^ 2) / T) ∧
      0 ≤ metricLoss idx scens v ∧ (metricLoss idx scens v = 0 ↔ ∀ k, ∃ p, ∀ t, scens t k = v (idx t p)) := by
  have hT' : (0 : K) < T := by exact_mod_cast hT
  have hat : ∃ a : Fin N → Fin L, ∀ k, nearest idx scens v k = dist idx scens v k (a k) := Classical.skolem.1 (nearest_attained idx scens v)
  obtain ⟨a, ha⟩ := hat
  have hnn : ∀ k ∈ Finset.univ, 0 ≤ nearest idx scens v k := by intro k _; rw [ha k]; exact dist_nonneg idx scens v k _
  refine ⟨fun b => Finset.sum_le_sum (fun k _ => nearest_le idx scens v k (b k)), ⟨a, Finset.sum_congr rfl (fun k _ => ha k)⟩, Finset.sum_nonneg hnn, ?_⟩
  unfold metricLoss
  rw [Finset.sum_eq_zero_iff_of_nonneg hnn]
  constructor
  · intro h k
    refine ⟨a k, fun t => ?_⟩
    have h1 := h k (Finset.mem_univ k)
    rw [ha k, dist, div_eq_zero_iff, or_iff_left hT'.ne', Finset.sum_eq_zero_iff_of_nonneg (fun t _ => sq_nonneg _)] at h1
    have := pow_eq_zero_iff (two_ne_zero) |>.1 (h1 t (Finset.mem_univ t))
    exact sub_eq_zero.1 this
  · intro h k _
    obtain ⟨p, hp⟩ := h k
    refine le_antisymm ?_ (hnn k (Finset.mem_univ k))
    refine (nearest_le idx scens v k p).trans (le_of_eq ?_)
    unfold dist
    rw [div_eq_zero_iff]
    left
    exact Finset.sum_eq_zero (fun t _ => by rw [hp t]; ring)

/-- C226: nodes on no nearest path do not move. -/
theorem C226_unused_nodes_stay [NeZero L] (idx : Fin T → Fin L → Fin n) (scens : Fin T → Fin N → ℚ) (init : Fin n → ℚ) (lr : ℚ) (i : Fin n) (j : Nat)
    (h : ∀ t p k, idx t p = i → ∃ q, (∑ s, (scens s k - descend (gradLoss idx scens) lr init j (idx s q)) ^ 2) / T < (∑ s, (scens s k - descend (gradLoss idx scens) lr init j (idx s p)) ^ 2) / T) :
    descend (gradLoss idx scens) lr init (j + 1) i = descend (gradLoss idx scens) lr init j i := by
  have key : ∀ u : Fin n → ℚ, (∀ t p k, idx t p = i → ∃ q, (∑ s, (scens s k - u (idx s q)) ^ 2) / T < (∑ s, (scens s k - u (idx s p)) ^ 2) / T) → gradLoss idx scens u i = 0 := by
    intro u hu
    unfold gradLoss
    refine Finset.sum_eq_zero (fun k _ => Finset.sum_eq_zero (fun p _ => ?_))
    by_cases hp : ∃ t, idx t p = i
    · obtain ⟨t, ht⟩ := hp
      obtain ⟨q, hq⟩ := hu t p k ht
      have hw : weight idx scens u k p = 0 := by
        unfold weight
        refine if_neg (fun hm => ?_)
        have h1 := (Finset.mem_filter.1 hm).2
        have h2 := nearest_le idx scens u k q
        rw [← h1] at h2
        exact absurd hq (not_lt.2 h2)
      rw [hw, zero_mul]
    · rw [Finset.sum_eq_zero (fun t _ => if_neg (fun h => hp ⟨t, h⟩)), mul_zero]
  have := key _ h
  simp only [descend, this, zero_mul, sub_zero]

/-- The distance of the root from the mean of the scenarios at its step, over the steps of the descent. -/
theorem root_error [NeZero L] (idx : Fin T → Fin L → Fin n) (scens : Fin T → Fin N → ℚ) (init : Fin n → ℚ) (lr : ℚ) (hT : 0 < T) (hN : 0 < N) (t0 : Fin T) (i : Fin n)
    (hc : ∀ p, idx t0 p = i) (h1 : ∀ t p, idx t p = i → t = t0) : ∀ j,
    descend (gradLoss idx scens) lr init j i - (∑ k, scens t0 k) / N = (1 - 2 * lr * N / T) ^ j * (init i - (∑ k, scens t0 k) / N) := by
  have hT' : (T : ℚ) ≠ 0 := by exact_mod_cast hT.ne'
  have hN' : (N : ℚ) ≠ 0 := by exact_mod_cast hN.ne'
  intro j
  induction j with
  | zero => simp [descend]
  | succ j ih =>
    rw [pow_succ, mul_assoc, mul_comm (1 - 2 * lr * N / T : ℚ), ← mul_assoc, ← ih]
    simp only [descend]
    rw [grad_common idx scens _ t0 i hc h1]
    have : ∑ k, 2 * (descend (gradLoss idx scens) lr init j i - scens t0 k) / (T : ℚ) = 2 * (N * descend (gradLoss idx scens) lr init j i - ∑ k, scens t0 k) / T := by
      rw [← Finset.sum_div, ← Finset.mul_sum, Finset.sum_sub_distrib, Finset.sum_const, Finset.card_univ, Fintype.card_fin, nsmul_eq_mul]
    rw [this]
    field_simp
    ring

/-- C225: in a `DiffTree` the root (any node shared by all paths) is multiplied, in its distance from the mean of the scenarios, by `1 - 2·lr·N/T` at every step, whatever
the rest of the tree does. Hence with `lr·N > T` it moves away from the mean at every step, for the default rate already with more than `10·T` scenarios, unless it starts
exactly at the mean. -/
theorem C225_root [NeZero L] (idx : Nat → Fin L → Fin n) (scens : Fin T → Fin N → ℚ) (base init : Fin n → ℚ) (lr : Option ℚ) (ev kMax : Nat) (tol : ℚ) (hev : 1 ≤ ev)
    (hT : 0 < T) (hN : 0 < N) (t0 : Fin T) (i : Fin n) (hc : ∀ p, idx t0 p = i) (h1 : ∀ (t : Fin T) p, idx t p = i → t = t0) :
    ∃ out j, diffTree (metricLoss (fun t : Fin T => idx t) scens) (gradLoss (fun t : Fin T => idx t) scens) idx base init lr N ev kMax tol = .ok out ∧ j ≤ kMax ∧
      out.vals = descend (gradLoss (fun t : Fin T => idx t) scens) out.lr init j ∧
      out.vals i - (∑ k, scens t0 k) / N = (1 - 2 * out.lr * N / T) ^ j * (init i - (∑ k, scens t0 k) / N) ∧
      (((∃ r, lr = some r ∧ (T : ℚ) < r * N) ∨ (lr = none ∧ 10 * T < N)) → init i ≠ (∑ k, scens t0 k) / N → ∀ b, |descend (gradLoss (fun t : Fin T => idx t) scens) out.lr init b i - (∑ k, scens t0 k) / N| <
        |descend (gradLoss (fun t : Fin T => idx t) scens) out.lr init (b + 1) i - (∑ k, scens t0 k) / N|) := by
  obtain ⟨out, h2, h3, h4, ⟨j, hj, h5⟩, _⟩ := C99_no_decay_and_stale_scenarios (metricLoss (fun t : Fin T => idx t) scens) (gradLoss (fun t : Fin T => idx t) scens) idx base init lr N ev kMax tol hev
  have hT' : (0 : ℚ) < T := by exact_mod_cast hT
  have hN' : (0 : ℚ) < N := by exact_mod_cast hN
  refine ⟨out, j, h2, hj, h5, ?_, ?_⟩
  · rw [h5]
    exact root_error _ scens init out.lr hT hN t0 i hc h1 j
  · intro hlr hne b
    have hbig : (T : ℚ) < out.lr * N := by
      rw [h3]
      rcases hlr with ⟨r, rfl, hr⟩ | ⟨rfl, hn⟩
      · exact hr
      · simp only [Option.getD_none]
        have h6 : (10 * T : ℚ) < N := by exact_mod_cast hn
        calc (T : ℚ) < 1 / 10 * N := by linarith
          _ ≤ _ := mul_le_mul_of_nonneg_right (le_max_right _ _) hN'.le
    rw [root_error _ scens init out.lr hT hN t0 i hc h1 b, root_error _ scens init out.lr hT hN t0 i hc h1 (b + 1)]
    have h7 : 1 < |1 - 2 * out.lr * N / T| := by
      rw [lt_abs]
      right
      have : 2 < 2 * out.lr * N / T := by rw [lt_div_iff₀ hT']; linarith
      linarith
    have h8 : 0 < |(1 - 2 * out.lr * N / T) ^ b * (init i - (∑ k, scens t0 k) / N)| := by
      rw [abs_pos]
      refine mul_ne_zero (pow_ne_zero _ (fun h0 => ?_)) (sub_ne_zero.2 hne)
      rw [h0, abs_zero] at h7
      exact absurd h7 (by norm_num)
    have h9 : (1 - 2 * out.lr * N / T) ^ (b + 1) * (init i - (∑ k, scens t0 k) / N) = (1 - 2 * out.lr * N / T) ^ b * (init i - (∑ k, scens t0 k) / N) * (1 - 2 * out.lr * N / T) := by ring
    rw [h9, abs_mul ((1 - 2 * out.lr * N / T) ^ b * (init i - (∑ k, scens t0 k) / N))]
    exact lt_mul_of_one_lt_right h8 h7

/-- C227: with `lr·N ≤ T` (for the default rate: at most `10·T` scenarios) no step of a `DiffTree` raises the loss, so the tree returned is at least as close to the scenarios as the initial one. -/
theorem C227_descent [NeZero L] (idx : Nat → Fin L → Fin n) (scens : Fin T → Fin N → ℚ) (base init : Fin n → ℚ) (lr : Option ℚ) (ev kMax : Nat) (tol : ℚ) (hev : 1 ≤ ev)
    (hT : 0 < T) (h1 : ∀ (t : Fin T) p (t' : Fin T) p', idx t p = idx t' p' → t = t') (hlr : (∃ r, lr = some r ∧ 0 ≤ r ∧ r * N ≤ T) ∨ (lr = none ∧ N ≤ 10 * T)) :
    ∃ out, diffTree (metricLoss (fun t : Fin T => idx t) scens) (gradLoss (fun t : Fin T => idx t) scens) idx base init lr N ev kMax tol = .ok out ∧
      metricLoss (fun t : Fin T => idx t) scens out.vals ≤ metricLoss (fun t : Fin T => idx t) scens init ∧
      ∀ b, metricLoss (fun t : Fin T => idx t) scens (descend (gradLoss (fun t : Fin T => idx t) scens) out.lr init (b + 1)) ≤
        metricLoss (fun t : Fin T => idx t) scens (descend (gradLoss (fun t : Fin T => idx t) scens) out.lr init b) := by
  obtain ⟨out, h2, h3, h4, ⟨j, hj, h5⟩, _⟩ := C99_no_decay_and_stale_scenarios (metricLoss (fun t : Fin T => idx t) scens) (gradLoss (fun t : Fin T => idx t) scens) idx base init lr N ev kMax tol hev
  have hr : 0 ≤ out.lr ∧ out.lr * N ≤ T := by
    rw [h3]
    rcases hlr with ⟨r, rfl, hr⟩ | ⟨rfl, hn⟩
    · exact hr
    · simp only [Option.getD_none]
      refine ⟨le_max_of_le_right (by norm_num), ?_⟩
      rw [max_mul_of_nonneg _ _ (Nat.cast_nonneg N)]
      refine max_le ?_ ?_
      · by_cases h0 : (N : ℚ) = 0
        · rw [h0]; simp
        · rw [one_div, inv_mul_cancel₀ h0]
          exact_mod_cast hT
      · have : (N : ℚ) ≤ 10 * T := by exact_mod_cast hn
        linarith
  have hstep : ∀ b, metricLoss (fun t : Fin T => idx t) scens (descend (gradLoss (fun t : Fin T => idx t) scens) out.lr init (b + 1)) ≤
        metricLoss (fun t : Fin T => idx t) scens (descend (gradLoss (fun t : Fin T => idx t) scens) out.lr init b) :=
    fun b => step_descent (fun t : Fin T => idx t) scens _ h1 hT out.lr hr.1 hr.2
  refine ⟨out, h2, ?_, hstep⟩
  rw [h5]
  clear h5 hj
  induction j with
  | zero => exact le_refl _
  | succ j ih => exact (hstep j).trans ih

/-- C227: with `2·lr·N ≤ T` (default rate: at most `5·T` scenarios, two or more steps) every value of the tree returned stays between bounds of its initial value and of the scenarios at its step. -/
theorem C227_range [NeZero L] (idx : Nat → Fin L → Fin n) (scens : Fin T → Fin N → ℚ) (base init : Fin n → ℚ) (lr : Option ℚ) (ev kMax : Nat) (tol : ℚ) (hev : 1 ≤ ev)
    (hT : 0 < T) (h1 : ∀ (t : Fin T) p (t' : Fin T) p', idx t p = idx t' p' → t = t') (hlr : (∃ r, lr = some r ∧ 0 ≤ r ∧ 2 * r * N ≤ T) ∨ (lr = none ∧ N ≤ 5 * T ∧ 2 ≤ T))
    (lo hi : Fin n → ℚ) (hi0 : ∀ i, lo i ≤ init i ∧ init i ≤ hi i) (hs : ∀ (t : Fin T) p k, lo (idx t p) ≤ scens t k ∧ scens t k ≤ hi (idx t p)) :
    ∃ out, diffTree (metricLoss (fun t : Fin T => idx t) scens) (gradLoss (fun t : Fin T => idx t) scens) idx base init lr N ev kMax tol = .ok out ∧ ∀ i, lo i ≤ out.vals i ∧ out.vals i ≤ hi i := by
  obtain ⟨out, h2, h3, h4, ⟨j, hj, h5⟩, _⟩ := C99_no_decay_and_stale_scenarios (metricLoss (fun t : Fin T => idx t) scens) (gradLoss (fun t : Fin T => idx t) scens) idx base init lr N ev kMax tol hev
  have hr : 0 ≤ out.lr ∧ 2 * out.lr * N ≤ T := by
    rw [h3]
    rcases hlr with ⟨r, rfl, hr⟩ | ⟨rfl, hn, hT2⟩
    · exact hr
    · simp only [Option.getD_none]
      refine ⟨le_max_of_le_right (by norm_num), ?_⟩
      rw [mul_assoc, max_mul_of_nonneg _ _ (Nat.cast_nonneg N), mul_max_of_nonneg _ _ (by norm_num)]
      refine max_le ?_ ?_
      · by_cases h0 : (N : ℚ) = 0
        · rw [h0]; simp
        · rw [one_div, inv_mul_cancel₀ h0, mul_one]
          exact_mod_cast hT2
      · have : (N : ℚ) ≤ 5 * T := by exact_mod_cast hn
        linarith
  refine ⟨out, h2, ?_⟩
  rw [h5]
  clear h5 hj
  induction j with
  | zero => exact hi0
  | succ j ih =>
    intro i
    exact step_range (fun t : Fin T => idx t) scens _ h1 hT out.lr hr.1 hr.2 i (lo i) (hi i) (ih i) (fun t p k hp => by rw [← hp]; exact hs t p k)

end PyF.TreeLoss
