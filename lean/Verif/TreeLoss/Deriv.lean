import Verif.TreeLoss.Lemmas
import Mathlib.Analysis.Calculus.Deriv.Pow
import Mathlib.Analysis.Calculus.Deriv.Mul
import Mathlib.Analysis.Calculus.Deriv.Add
import Mathlib.Analysis.Calculus.Deriv.Linear

namespace PyF.TreeLoss

variable {n L N T : Nat}

/-- C224: where every scenario has a single nearest path, the gradient the training uses is the derivative of the loss, in every direction. -/
theorem C224_gradient [NeZero L] (idx : Fin T → Fin L → Fin n) (scens : Fin T → Fin N → ℝ) (v : Fin n → ℝ) (a : Fin N → Fin L)
    (ha : ∀ k p, p ≠ a k → (∑ t, (scens t k - v (idx t (a k))) ^ 2) / (T : ℝ) < (∑ t, (scens t k - v (idx t p)) ^ 2) / T) (d : Fin n → ℝ) :
    HasDerivAt (fun s : ℝ => metricLoss idx scens (fun i => v i + s * d i)) (∑ i, gradLoss idx scens v i * d i) 0 := by
  have hdist : ∀ k p, HasDerivAt (fun s : ℝ => dist idx scens (fun i => v i + s * d i) k p) ((∑ t, 2 * (v (idx t p) - scens t k) * d (idx t p)) / T) 0 := by
    intro k p
    unfold dist
    refine HasDerivAt.div_const ?_ _
    refine HasDerivAt.fun_sum (fun t _ => ?_)
    have h1 : HasDerivAt (fun s : ℝ => scens t k - (v (idx t p) + s * d (idx t p))) (-(d (idx t p))) 0 := by
      have := (((hasDerivAt_id (0 : ℝ)).mul_const (d (idx t p))).const_add (v (idx t p))).const_sub (scens t k)
      simpa using this
    have h2 := h1.pow 2
    have e : 2 * (v (idx t p) - scens t k) * d (idx t p) = ((2 : ℕ) : ℝ) * (scens t k - (v (idx t p) + 0 * d (idx t p))) ^ (2 - 1) * -(d (idx t p)) := by
      norm_num
      ring
    rw [e]
    exact h2
  have hmin : ∀ k (u : Fin n → ℝ), (∀ p, p ≠ a k → dist idx scens u k (a k) < dist idx scens u k p) → nearest idx scens u k = dist idx scens u k (a k) := by
    intro k u hu
    refine le_antisymm (nearest_le idx scens u k (a k)) ?_
    obtain ⟨p, hp⟩ := nearest_attained idx scens u k
    rw [hp]
    by_cases hpa : p = a k
    · rw [hpa]
    · exact (hu p hpa).le
  have hev : ∀ᶠ s in nhds (0 : ℝ), ∀ k, ∀ p, p ≠ a k → dist idx scens (fun i => v i + s * d i) k (a k) < dist idx scens (fun i => v i + s * d i) k p := by
    rw [Filter.eventually_all]
    intro k
    rw [Filter.eventually_all]
    intro p
    by_cases hpa : p = a k
    · exact Filter.Eventually.of_forall (fun s h => absurd hpa h)
    · have h0 : dist idx scens (fun i => v i + 0 * d i) k (a k) < dist idx scens (fun i => v i + 0 * d i) k p := by
        simp only [zero_mul, add_zero]
        exact ha k p hpa
      have := (hdist k (a k)).continuousAt.eventually_lt (hdist k p).continuousAt h0
      exact this.mono (fun s hs _ => hs)
  have hw : ∀ k p, weight idx scens v k p = if p = a k then 1 else 0 := by
    intro k p
    have hn := hmin k v (ha k)
    have ht : ties idx scens v k = {a k} := by
      ext q
      simp only [ties, Finset.mem_filter, Finset.mem_univ, true_and, Finset.mem_singleton, hn]
      constructor
      · intro h
        by_contra hq
        exact absurd h (ne_of_gt (ha k q hq))
      · intro h; rw [h]
    unfold weight
    rw [ht]
    simp
  have hgrad : ∑ i, gradLoss idx scens v i * d i = ∑ k, (∑ t, 2 * (v (idx t (a k)) - scens t k) * d (idx t (a k))) / T := by
    unfold gradLoss
    simp only [hw, ite_mul, one_mul, zero_mul, Finset.sum_ite_eq', Finset.mem_univ, if_true, Finset.sum_mul]
    rw [Finset.sum_comm]
    refine Finset.sum_congr rfl (fun k _ => ?_)
    rw [Finset.sum_comm, Finset.sum_div]
    refine Finset.sum_congr rfl (fun t _ => ?_)
    rw [Finset.sum_ite_eq, if_pos (Finset.mem_univ _)]
    ring
  rw [hgrad]
  have hsum : HasDerivAt (fun s : ℝ => ∑ k, dist idx scens (fun i => v i + s * d i) k (a k)) (∑ k, (∑ t, 2 * (v (idx t (a k)) - scens t k) * d (idx t (a k))) / T) 0 :=
    HasDerivAt.fun_sum (fun k _ => hdist k (a k))
  refine hsum.congr_of_eventuallyEq ?_
  filter_upwards [hev] with s hs
  exact Finset.sum_congr rfl (fun k _ => hmin k _ (hs k))

end PyF.TreeLoss
