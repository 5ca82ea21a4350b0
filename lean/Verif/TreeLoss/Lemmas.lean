import Verif.TreeLoss.Model
import Mathlib.Algebra.Order.BigOperators.Group.Finset
import Mathlib.Algebra.BigOperators.Ring.Finset
import Mathlib.Algebra.BigOperators.Field
import Mathlib.Tactic.Ring
import Mathlib.Tactic.Linarith
import Mathlib.Tactic.FieldSimp
import Mathlib.Tactic.Positivity

namespace PyF.TreeLoss

variable {K : Type} [Field K] [LinearOrder K] [IsStrictOrderedRing K] {n L N T : Nat}

section
variable [NeZero L] (idx : Fin T → Fin L → Fin n) (scens : Fin T → Fin N → K) (v : Fin n → K)

omit [NeZero L] in
theorem dist_nonneg (k : Fin N) (p : Fin L) : 0 ≤ dist idx scens v k p := by
  unfold dist
  exact div_nonneg (Finset.sum_nonneg (fun t _ => sq_nonneg _)) (Nat.cast_nonneg T)

omit [IsStrictOrderedRing K] in
theorem nearest_le (k : Fin N) (p : Fin L) : nearest idx scens v k ≤ dist idx scens v k p :=
  Finset.inf'_le _ (Finset.mem_univ p)

omit [IsStrictOrderedRing K] in
theorem nearest_attained (k : Fin N) : ∃ p, nearest idx scens v k = dist idx scens v k p := by
  obtain ⟨p, _, hp⟩ := Finset.exists_mem_eq_inf' (Finset.univ_nonempty (α := Fin L)) (dist idx scens v k)
  exact ⟨p, hp⟩

omit [IsStrictOrderedRing K] in
theorem ties_nonempty (k : Fin N) : (ties idx scens v k).Nonempty := by
  obtain ⟨p, hp⟩ := nearest_attained idx scens v k
  exact ⟨p, by simp [ties, hp]⟩

theorem card_pos (k : Fin N) : (0 : K) < ((ties idx scens v k).card : K) := by
  have := Finset.card_pos.2 (ties_nonempty idx scens v k)
  exact_mod_cast this

theorem weight_nonneg (k : Fin N) (p : Fin L) : 0 ≤ weight idx scens v k p := by
  unfold weight
  split
  · exact div_nonneg zero_le_one (Nat.cast_nonneg _)
  · exact le_refl _

theorem weight_sum (k : Fin N) : ∑ p, weight idx scens v k p = 1 := by
  unfold weight
  rw [← Finset.sum_filter]
  have : Finset.univ.filter (fun p => p ∈ ties idx scens v k) = ties idx scens v k := by ext; simp
  rw [this, Finset.sum_const, nsmul_eq_mul, mul_one_div, div_self (card_pos idx scens v k).ne']

/-- The loss is the weighted mean of the distances at the present values … -/
theorem loss_eq_weighted : metricLoss idx scens v = ∑ k, ∑ p, weight idx scens v k p * dist idx scens v k p := by
  unfold metricLoss
  refine Finset.sum_congr rfl (fun k _ => ?_)
  have : ∀ p, weight idx scens v k p * dist idx scens v k p = weight idx scens v k p * nearest idx scens v k := by
    intro p
    unfold weight
    split
    · rename_i h
      rw [(Finset.mem_filter.1 h).2]
    · simp
  rw [Finset.sum_congr rfl (fun p _ => this p), ← Finset.sum_mul, weight_sum, one_mul]

/-- … and at most that with the same weights at any other values. -/
theorem loss_le_weighted (v' : Fin n → K) : metricLoss idx scens v' ≤ ∑ k, ∑ p, weight idx scens v k p * dist idx scens v' k p := by
  unfold metricLoss
  refine Finset.sum_le_sum (fun k _ => ?_)
  calc nearest idx scens v' k = ∑ p, weight idx scens v k p * nearest idx scens v' k := by rw [← Finset.sum_mul, weight_sum, one_mul]
    _ ≤ _ := Finset.sum_le_sum (fun p _ => mul_le_mul_of_nonneg_left (nearest_le idx scens v' k p) (weight_nonneg idx scens v k p))

/-- Weight of scenario `k` at step `t` on node `i`. -/
def share (i : Fin n) (t : Fin T) (k : Fin N) : K := ∑ p, if idx t p = i then weight idx scens v k p else 0

theorem share_nonneg (i : Fin n) (t : Fin T) (k : Fin N) : 0 ≤ share idx scens v i t k :=
  Finset.sum_nonneg (fun p _ => by split; exacts [weight_nonneg idx scens v k p, le_refl _])

theorem share_le_one (i : Fin n) (t : Fin T) (k : Fin N) : share idx scens v i t k ≤ 1 := by
  rw [← weight_sum idx scens v k]
  refine Finset.sum_le_sum (fun p _ => ?_)
  split
  · exact le_refl _
  · exact weight_nonneg idx scens v k p

/-- Total weight on node `i`. -/
def mass (i : Fin n) : K := ∑ k, ∑ t, share idx scens v i t k

theorem mass_nonneg (i : Fin n) : 0 ≤ mass idx scens v i := Finset.sum_nonneg (fun k _ => Finset.sum_nonneg (fun t _ => share_nonneg idx scens v i t k))

/-- Every node belongs to one step. -/
def OneStep (idx : Fin T → Fin L → Fin n) : Prop := ∀ t p t' p', idx t p = idx t' p' → t = t'

omit [IsStrictOrderedRing K] in
theorem share_zero {idx : Fin T → Fin L → Fin n} (h1 : OneStep idx) {t0 : Fin T} {p0 : Fin L} {t : Fin T} (ht : t ≠ t0) (k : Fin N) : share idx scens v (idx t0 p0) t k = 0 := by
  unfold share
  refine Finset.sum_eq_zero (fun p _ => ?_)
  rw [if_neg (fun h => ht (h1 t p t0 p0 h))]

theorem mass_le (h1 : OneStep idx) (i : Fin n) : mass idx scens v i ≤ N := by
  unfold mass
  have : ∀ k : Fin N, ∑ t, share idx scens v i t k ≤ 1 := by
    intro k
    by_cases hi : ∃ t0 p0, idx t0 p0 = i
    · obtain ⟨t0, p0, rfl⟩ := hi
      rw [Finset.sum_eq_single t0 (fun t _ ht => share_zero scens v h1 ht k) (fun h => absurd (Finset.mem_univ _) h)]
      exact share_le_one idx scens v _ t0 k
    · have : ∀ t, share idx scens v i t k = 0 := by
        intro t
        unfold share
        exact Finset.sum_eq_zero (fun p _ => if_neg (fun h => hi ⟨t, p, h⟩))
      rw [Finset.sum_eq_zero (fun t _ => this t)]
      exact zero_le_one
  calc _ ≤ ∑ _k : Fin N, (1 : K) := Finset.sum_le_sum (fun k _ => this k)
    _ = N := by simp

omit [IsStrictOrderedRing K] in
/-- The gradient by the weights on the node. -/
theorem grad_eq (i : Fin n) : gradLoss idx scens v i = ∑ k, ∑ t, share idx scens v i t k * (2 * (v i - scens t k) / T) := by
  unfold gradLoss
  refine Finset.sum_congr rfl (fun k _ => ?_)
  simp only [Finset.mul_sum]
  rw [Finset.sum_comm]
  refine Finset.sum_congr rfl (fun t _ => ?_)
  unfold share
  rw [Finset.sum_mul]
  refine Finset.sum_congr rfl (fun p _ => ?_)
  split <;> simp

omit [IsStrictOrderedRing K] in
/-- The weighted sum of distances, node by node. -/
theorem weighted_eq (v' : Fin n → K) : ∑ k, ∑ p, weight idx scens v k p * dist idx scens v' k p = ∑ i, ∑ k, ∑ t, share idx scens v i t k * ((scens t k - v' i) ^ 2 / T) := by
  rw [Finset.sum_comm (s := Finset.univ (α := Fin n))]
  refine Finset.sum_congr rfl (fun k _ => ?_)
  rw [Finset.sum_comm (s := Finset.univ (α := Fin n))]
  have : ∀ t, ∑ i, share idx scens v i t k * ((scens t k - v' i) ^ 2 / T) = ∑ p, weight idx scens v k p * ((scens t k - v' (idx t p)) ^ 2 / T) := by
    intro t
    unfold share
    simp only [Finset.sum_mul]
    rw [Finset.sum_comm]
    refine Finset.sum_congr rfl (fun p _ => ?_)
    rw [Finset.sum_eq_single (idx t p)]
    · rw [if_pos rfl]
    · intro i _ hi
      rw [if_neg (Ne.symm hi), zero_mul]
    · intro h; exact absurd (Finset.mem_univ _) h
  rw [Finset.sum_congr rfl (fun t _ => this t), Finset.sum_comm]
  refine Finset.sum_congr rfl (fun p _ => ?_)
  unfold dist
  rw [Finset.sum_div, Finset.mul_sum]

omit [IsStrictOrderedRing K] in
/-- One node: the weighted squares after a step of size `r`. -/
theorem node_step (i : Fin n) (r : K) (hT : (T : K) ≠ 0) :
    ∑ k, ∑ t, share idx scens v i t k * ((scens t k - (v i - gradLoss idx scens v i * r)) ^ 2 / T) =
      (∑ k, ∑ t, share idx scens v i t k * ((scens t k - v i) ^ 2 / T)) - r * gradLoss idx scens v i ^ 2 * (1 - r * mass idx scens v i / T) := by
  have h1 : ∀ k t, share idx scens v i t k * ((scens t k - (v i - gradLoss idx scens v i * r)) ^ 2 / T) =
      share idx scens v i t k * ((scens t k - v i) ^ 2 / T) - (gradLoss idx scens v i * r) * (share idx scens v i t k * (2 * (v i - scens t k) / T)) +
        (gradLoss idx scens v i * r) ^ 2 / T * share idx scens v i t k := by
    intro k t
    field_simp
    ring
  simp only [h1, Finset.sum_add_distrib, Finset.sum_sub_distrib, ← Finset.mul_sum]
  rw [← grad_eq]
  change _ + (gradLoss idx scens v i * r) ^ 2 / T * mass idx scens v i = _
  field_simp
  ring

/-- A step with rate `r` does not raise the loss if `r · N ≤ T`. -/
theorem step_descent (h1 : OneStep idx) (hT : 0 < T) (r : K) (hr : 0 ≤ r) (hrN : r * N ≤ T) :
    metricLoss idx scens (fun i => v i - gradLoss idx scens v i * r) ≤ metricLoss idx scens v := by
  have hT' : (0 : K) < T := by exact_mod_cast hT
  refine (loss_le_weighted idx scens v _).trans ?_
  rw [loss_eq_weighted idx scens v, weighted_eq, weighted_eq]
  refine Finset.sum_le_sum (fun i _ => ?_)
  rw [node_step idx scens v i r hT'.ne']
  have : r * mass idx scens v i / T ≤ 1 := by
    rw [div_le_one hT']
    exact (mul_le_mul_of_nonneg_left (mass_le idx scens v h1 i) hr).trans hrN
  have h2 : 0 ≤ r * gradLoss idx scens v i ^ 2 * (1 - r * mass idx scens v i / T) := mul_nonneg (mul_nonneg hr (sq_nonneg _)) (by linarith)
  linarith

omit [IsStrictOrderedRing K] in
/-- The value of a node after a step. -/
theorem node_value (i : Fin n) (r : K) (hT : (T : K) ≠ 0) :
    v i - gradLoss idx scens v i * r = (1 - 2 * r * mass idx scens v i / T) * v i + 2 * r / T * ∑ k, ∑ t, share idx scens v i t k * scens t k := by
  rw [grad_eq]
  have h1 : ∀ k t, share idx scens v i t k * (2 * (v i - scens t k) / T) = (2 * v i / T) * share idx scens v i t k - 2 / T * (share idx scens v i t k * scens t k) := by
    intro k t
    field_simp
  simp only [h1, Finset.sum_sub_distrib, ← Finset.mul_sum]
  change v i - ((2 * v i / T) * mass idx scens v i - _) * r = _
  field_simp
  ring

/-- A step keeps a node between bounds of its value and of the scenarios at its step, if `2 r N ≤ T`. -/
theorem step_range (h1 : OneStep idx) (hT : 0 < T) (r : K) (hr : 0 ≤ r) (hrN : 2 * r * N ≤ T) (i : Fin n) (lo hi : K) (hv : lo ≤ v i ∧ v i ≤ hi)
    (hs : ∀ t p k, idx t p = i → lo ≤ scens t k ∧ scens t k ≤ hi) :
    lo ≤ v i - gradLoss idx scens v i * r ∧ v i - gradLoss idx scens v i * r ≤ hi := by
  have hT' : (0 : K) < T := by exact_mod_cast hT
  rw [node_value idx scens v i r hT'.ne']
  have hm : 2 * r * mass idx scens v i / T ≤ 1 := by
    rw [div_le_one hT']
    exact (mul_le_mul_of_nonneg_left (mass_le idx scens v h1 i) (by linarith)).trans hrN
  have hb : ∀ t k, share idx scens v i t k * lo ≤ share idx scens v i t k * scens t k ∧ share idx scens v i t k * scens t k ≤ share idx scens v i t k * hi := by
    intro t k
    by_cases hp : ∃ p, idx t p = i
    · obtain ⟨p, hp⟩ := hp
      exact ⟨mul_le_mul_of_nonneg_left (hs t p k hp).1 (share_nonneg idx scens v i t k), mul_le_mul_of_nonneg_left (hs t p k hp).2 (share_nonneg idx scens v i t k)⟩
    · have : share idx scens v i t k = 0 := Finset.sum_eq_zero (fun p _ => if_neg (fun h => hp ⟨p, h⟩))
      simp [this]
  have hlo : mass idx scens v i * lo ≤ ∑ k, ∑ t, share idx scens v i t k * scens t k := by
    unfold mass
    rw [Finset.sum_mul]
    refine Finset.sum_le_sum (fun k _ => ?_)
    rw [Finset.sum_mul]
    exact Finset.sum_le_sum (fun t _ => (hb t k).1)
  have hhi : ∑ k, ∑ t, share idx scens v i t k * scens t k ≤ mass idx scens v i * hi := by
    unfold mass
    rw [Finset.sum_mul]
    refine Finset.sum_le_sum (fun k _ => ?_)
    rw [Finset.sum_mul]
    exact Finset.sum_le_sum (fun t _ => (hb t k).2)
  have hc : 0 ≤ 2 * r / (T : K) := div_nonneg (by linarith) hT'.le
  have e : ∀ x : K, (1 - 2 * r * mass idx scens v i / T) * x + 2 * r / T * (mass idx scens v i * x) = x := by intro x; field_simp; ring
  constructor
  · calc lo = _ := (e lo).symm
      _ ≤ _ := add_le_add (mul_le_mul_of_nonneg_left hv.1 (by linarith)) (mul_le_mul_of_nonneg_left hlo hc)
  · calc _ ≤ _ := add_le_add (mul_le_mul_of_nonneg_left hv.2 (by linarith)) (mul_le_mul_of_nonneg_left hhi hc)
      _ = hi := e hi

/-- A node all paths share at its step. -/
theorem grad_common (t0 : Fin T) (i : Fin n) (hc : ∀ p, idx t0 p = i) (h1 : ∀ t p, idx t p = i → t = t0) :
    gradLoss idx scens v i = ∑ k, 2 * (v i - scens t0 k) / T := by
  rw [grad_eq]
  refine Finset.sum_congr rfl (fun k _ => ?_)
  rw [Finset.sum_eq_single t0]
  · have : share idx scens v i t0 k = 1 := by
      unfold share
      rw [← weight_sum idx scens v k]
      exact Finset.sum_congr rfl (fun p _ => if_pos (hc p))
    rw [this, one_mul]
  · intro t _ ht
    have : share idx scens v i t k = 0 := Finset.sum_eq_zero (fun p _ => if_neg (fun h => ht (h1 t p h)))
    rw [this, zero_mul]
  · intro h; exact absurd (Finset.mem_univ _) h

end

end PyF.TreeLoss
