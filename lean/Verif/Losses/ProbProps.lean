import Verif.Losses.ProbModel
import Verif.Losses.Props2
import Mathlib.Tactic.Positivity

/-! Property C315: the training loss of a probabilistic structured network. -/

namespace PyF.Losses
open Spec

variable {n d : ℕ}

namespace Spec

/-- Output of the network with forecasts `p` and variances `s`: the variance is the last column. -/
def joined (p : Fin n → Fin d → ℝ) (s : Fin n → ℝ) : Fin n → Fin (d + 1) → ℝ := fun i => Fin.snoc (p i) (s i)

/-- The value closest to the squared error `e` that the lower bound `v` of the variance allows. -/
noncomputable def bestVar (v e : ℝ) : ℝ := if e < v then v else e

end Spec

theorem outMean_joined (p : Fin n → Fin d → ℝ) (s : Fin n → ℝ) : outMean (joined p s) = p := by
  funext i j
  simp [outMean, joined]

theorem outVar_joined (p : Fin n → Fin d → ℝ) (s : Fin n → ℝ) : outVar (joined p s) = s := by
  funext i
  simp [outVar, joined]

/-- One row of the likelihood as a function of the variance. -/
theorem term_min {v e s : ℝ} (hv : 0 < v) (hs : v ≤ s) :
    e / bestVar v e + Real.log (bestVar v e) ≤ e / s + Real.log s ∧
    (e / s + Real.log s = e / bestVar v e + Real.log (bestVar v e) ↔ s = bestVar v e) := by
  have sp : 0 < s := lt_of_lt_of_le hv hs
  unfold bestVar
  by_cases h : e < v
  · rw [if_pos h]
    obtain ⟨a, b⟩ := sub_log (v / s) (by positivity)
    rw [Real.log_div hv.ne' sp.ne'] at a b
    have key : e / s + Real.log s - (e / v + Real.log v) = (v / s - (Real.log v - Real.log s) - 1) + (v - e) * (1 / v - 1 / s) := by
      field_simp
      ring
    have hd : 0 ≤ 1 / v - 1 / s := by
      have := one_div_le_one_div_of_le hv hs
      linarith
    have hp : 0 ≤ (v - e) * (1 / v - 1 / s) := mul_nonneg (by linarith) hd
    refine ⟨by linarith, ?_⟩
    constructor
    · intro h0
      have := b.1 (by linarith)
      rw [div_eq_one_iff_eq sp.ne'] at this
      exact this.symm
    · rintro rfl
      rfl
  · rw [if_neg h]
    push Not at h
    have ep : 0 < e := lt_of_lt_of_le hv h
    obtain ⟨a, b⟩ := sub_log (e / s) (by positivity)
    rw [Real.log_div ep.ne' sp.ne'] at a b
    rw [div_self ep.ne']
    refine ⟨by linarith, ?_⟩
    constructor
    · intro h0
      have := b.1 (by linarith)
      rw [div_eq_one_iff_eq sp.ne'] at this
      exact this.symm
    · rintro rfl
      rw [div_self ep.ne']

theorem likelihood_some {a b s : Fin n → ℝ} (hs : ∀ i, 0 < s i) :
    likelihoodLoss a b s = some (mean (fun i => (a i - b i) ^ 2 / s i + Real.log (s i))) := by
  unfold likelihoodLoss
  rw [if_neg (by rintro ⟨i, hi⟩; exact absurd (hs i) (not_lt.2 hi))]

/-- **C315.** The loss is not a number exactly on a batch of at most one row or with a variance that is not positive. -/
theorem C315_nan (objective : (Fin n → Fin d → ℝ) → Fin n → ℝ) (p t : Fin n → Fin d → ℝ) (s : Fin n → ℝ) :
    structuredProbLoss objective (joined p s) t = none ↔ n ≤ 1 ∨ ∃ i, s i ≤ 0 := by
  unfold structuredProbLoss
  simp only [outMean_joined, outVar_joined]
  by_cases hs : ∃ i, s i ≤ 0
  · have : likelihoodLoss (objective p) (objective t) s = none := by
      unfold likelihoodLoss
      rw [if_pos hs]
    simp [this, hs]
  · have hs' : ∀ i, 0 < s i := by
      push Not at hs
      exact hs
    rw [likelihood_some hs', Option.bind_some]
    by_cases hn : n ≤ 1
    · simp [right_single hn, hn]
    · obtain ⟨m, hm, -⟩ := C199_range (by omega) (objective p) (objective t)
      simp [hm, hn, hs]

/-- **C315.** With the variances the network can forecast (`softplus` plus 1e-10) the loss of a batch of at least two rows
is above `log 1e-10 - 1` plus the mean squared error. Perfect forecasts with one variance `v` have loss `log v - 1`: the
smaller the variance the better, without an optimum. -/
theorem C315_floor (hn : 2 ≤ n) (objective : (Fin n → Fin d → ℝ) → Fin n → ℝ) (p t : Fin n → Fin d → ℝ) (w : Fin n → ℝ) :
    (∃ r, structuredProbLoss objective (joined p (fun i => softVar (w i))) t = some r ∧
      Real.log (1 / 10 ^ 10) - 1 + mse p t < r) ∧
    ∀ v, 0 < v → structuredProbLoss objective (joined t (fun _ => v)) t = some (Real.log v - 1) := by
  have hn' : (0 : ℝ) < n := by exact_mod_cast (by omega : 0 < n)
  constructor
  · obtain ⟨m, hm, hlo, -⟩ := C199_range hn (objective p) (objective t)
    have hs : ∀ i, (1 : ℝ) / 10 ^ 10 < softVar (w i) := by
      intro i
      unfold softVar
      have : 0 < Real.log (1 + Real.exp (w i)) := Real.log_pos (by have := Real.exp_pos (w i); linarith)
      linarith
    have hs0 : ∀ i, 0 < softVar (w i) := fun i => lt_trans (by positivity) (hs i)
    refine ⟨mse p t + m + mean (fun i => (objective p i - objective t i) ^ 2 / softVar (w i) + Real.log (softVar (w i))), ?_, ?_⟩
    · unfold structuredProbLoss
      simp only [outMean_joined, outVar_joined, likelihood_some hs0, Option.bind_some, hm, Option.map_some]
    · have : Real.log (1 / 10 ^ 10) < mean (fun i => (objective p i - objective t i) ^ 2 / softVar (w i) + Real.log (softVar (w i))) := by
        unfold mean
        rw [lt_div_iff₀ hn']
        calc Real.log (1 / 10 ^ 10) * n = ∑ _i : Fin n, Real.log (1 / 10 ^ 10) := by
              simp only [Finset.sum_const, Finset.card_univ, Fintype.card_fin, nsmul_eq_mul]
              ring
          _ < _ := by
              apply Finset.sum_lt_sum_of_nonempty ⟨⟨0, by omega⟩, Finset.mem_univ _⟩
              intro i _
              have h1 := Real.log_lt_log (by positivity) (hs i)
              have h2 : 0 ≤ (objective p i - objective t i) ^ 2 / softVar (w i) := div_nonneg (sq_nonneg _) (hs0 i).le
              linarith
      linarith
  · intro v hv
    obtain ⟨m, hm, -, -, hbest⟩ := C199_range hn (objective t) (objective t)
    have b : m = -1 := hbest.2 (fun i j => Iff.rfl)
    unfold structuredProbLoss
    simp only [outMean_joined, outVar_joined, likelihood_some (fun _ => hv), Option.bind_some, hm, Option.map_some, b]
    have a : mse t t = 0 := by simp [mse]
    rw [a]
    simp only [sub_self, ne_eq, OfNat.ofNat_ne_zero, not_false_eq_true, zero_pow, zero_div, zero_add, mean, Finset.sum_const,
      Finset.card_univ, Fintype.card_fin, nsmul_eq_mul]
    rw [mul_div_cancel_left₀ _ hn'.ne']
    congr 1
    ring

/-- **C315.** Whatever the forecasts, among variances of at least `v` the loss is least exactly where the variance of every
row is the squared error of its objective (or `v`, if that is larger); errors of the single targets play no role. -/
theorem C315_variance (hn : 2 ≤ n) (objective : (Fin n → Fin d → ℝ) → Fin n → ℝ) (p t : Fin n → Fin d → ℝ) {v : ℝ} (hv : 0 < v)
    (s : Fin n → ℝ) (hs : ∀ i, v ≤ s i) :
    ∃ r r', structuredProbLoss objective (joined p s) t = some r ∧
      structuredProbLoss objective (joined p (fun i => bestVar v ((objective p i - objective t i) ^ 2))) t = some r' ∧
      r' ≤ r ∧ (r = r' ↔ ∀ i, s i = bestVar v ((objective p i - objective t i) ^ 2)) := by
  have hn' : (0 : ℝ) < n := by exact_mod_cast (by omega : 0 < n)
  obtain ⟨m, hm, -⟩ := C199_range hn (objective p) (objective t)
  have hs0 : ∀ i, 0 < s i := fun i => lt_of_lt_of_le hv (hs i)
  have hb0 : ∀ i, 0 < bestVar v ((objective p i - objective t i) ^ 2) := by
    intro i
    unfold bestVar
    split
    · exact hv
    · rename_i h
      push Not at h
      exact lt_of_lt_of_le hv h
  refine ⟨mse p t + m + mean (fun i => (objective p i - objective t i) ^ 2 / s i + Real.log (s i)),
    mse p t + m + mean (fun i => (objective p i - objective t i) ^ 2 / bestVar v ((objective p i - objective t i) ^ 2) +
      Real.log (bestVar v ((objective p i - objective t i) ^ 2))), ?_, ?_, ?_, ?_⟩
  · unfold structuredProbLoss
    simp only [outMean_joined, outVar_joined, likelihood_some hs0, Option.bind_some, hm, Option.map_some]
  · unfold structuredProbLoss
    simp only [outMean_joined, outVar_joined, likelihood_some hb0, Option.bind_some, hm, Option.map_some]
  · have := Finset.sum_le_sum (fun i (_ : i ∈ Finset.univ) => (term_min (e := (objective p i - objective t i) ^ 2) hv (hs i)).1)
    unfold mean
    have := div_le_div_of_nonneg_right this hn'.le
    linarith
  · unfold mean
    rw [add_right_inj, div_left_inj' hn'.ne']
    constructor
    · intro h i
      have := (Finset.sum_eq_sum_iff_of_le
        (fun i (_ : i ∈ Finset.univ) => (term_min (e := (objective p i - objective t i) ^ 2) hv (hs i)).1)).1 h.symm i (Finset.mem_univ _)
      exact (term_min hv (hs i)).2.1 this.symm
    · intro h
      exact Finset.sum_congr rfl (fun i _ => (term_min hv (hs i)).2.2 (h i))

end PyF.Losses
