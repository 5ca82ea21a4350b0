import Verif.Kalman.Model
import Mathlib.LinearAlgebra.Matrix.Determinant.Basic
import Mathlib.Algebra.Order.BigOperators.Ring.Finset
import Mathlib.Tactic.Ring
import Mathlib.Tactic.FieldSimp
import Mathlib.Tactic.Linarith
import Mathlib.Tactic.Positivity

/-! C310: repeated observation of one constant quantity with the filter as coded. -/

namespace PyF.Kalman
open Matrix

/-- A number as a matrix. -/
def sm (p : ℝ) : Matrix Unit Unit ℝ := fun _ _ => p

/-- A number as a vector. -/
def sv (p : ℝ) : Unit → ℝ := fun _ => p

theorem sm_mul (a b : ℝ) : sm a * sm b = sm (a * b) := by
  ext i j
  simp [sm, Matrix.mul_apply]

theorem sm_inv (a : ℝ) (h : a ≠ 0) : (sm a)⁻¹ = sm a⁻¹ := by
  apply Matrix.inv_eq_right_inv
  rw [sm_mul, mul_inv_cancel₀ h]
  ext i j
  simp [sm]

theorem sm_one : (1 : Matrix Unit Unit ℝ) = sm 1 := by ext i j; simp [sm]

theorem sm_zero : (0 : Matrix Unit Unit ℝ) = sm 0 := by ext i j; simp [sm]

theorem sm_t (a : ℝ) : (sm a)ᵀ = sm a := rfl

theorem sm_add (a b : ℝ) : sm a + sm b = sm (a + b) := rfl

theorem sm_sub (a b : ℝ) : sm a - sm b = sm (a - b) := rfl

theorem sm_vec (a b : ℝ) : sm a *ᵥ sv b = sv (a * b) := by
  ext i
  simp [sm, sv, Matrix.mulVec, dotProduct]

/-- One step of the filter for a constant observed directly. -/
theorem scalar_step (x p y r : ℝ) (hp : 0 < p) (hr : 0 < r) :
    kalman (sv x) (sm p) 1 0 (sv y) 1 (sm r) = (sv (y + r / (p + r) * (x - y)), sm (p * r * (r ^ 2 + r * p + p ^ 2) / (p + r) ^ 3)) := by
  have h : p + r ≠ 0 := by positivity
  unfold kalman kPredict kUpdate gain
  rw [sm_one, sm_zero]
  simp only [sm_t, sm_mul, sm_add, sm_vec, one_mul, mul_one, add_zero, sm_inv _ h, sm_sub]
  refine Prod.ext ?_ ?_
  · funext u
    show x + (sm _ *ᵥ (sv y - sv x)) u = _
    rw [show sv y - sv x = sv (y - x) from rfl, sm_vec]
    show x + p * (p + r)⁻¹ * (y - x) = y + r / (p + r) * (x - y)
    field_simp
    ring
  · refine congrArg sm (?_ : (1 - p * (p + r)⁻¹) * ((p - p * (p + r)⁻¹ * p) * (1 - p * (p + r)⁻¹)) + p * (p + r)⁻¹ * (r * (p * (p + r)⁻¹)) = p * r * (r ^ 2 + r * p + p ^ 2) / (p + r) ^ 3)
    field_simp
    ring

/-- The filter after the observations `ys`. -/
noncomputable def run (x p r : ℝ) (ys : List ℝ) : (Unit → ℝ) × Matrix Unit Unit ℝ :=
  ys.foldl (fun s y => kalman s.1 s.2 1 0 (sv y) 1 (sm r)) (sv x, sm p)

/-- Precisions in units of `1 / r`: between one and two are added. -/
theorem step_precision (p r : ℝ) (hp : 0 < p) (hr : 0 < r) :
    0 < p * r * (r ^ 2 + r * p + p ^ 2) / (p + r) ^ 3 ∧ 1 / p + 1 / r < 1 / (p * r * (r ^ 2 + r * p + p ^ 2) / (p + r) ^ 3) ∧
      1 / (p * r * (r ^ 2 + r * p + p ^ 2) / (p + r) ^ 3) ≤ 1 / p + 2 / r ∧ (p ≤ r → 1 / p + 5 / 3 / r ≤ 1 / (p * r * (r ^ 2 + r * p + p ^ 2) / (p + r) ^ 3)) := by
  have hs : 0 < r ^ 2 + r * p + p ^ 2 := by positivity
  have e : 1 / (p * r * (r ^ 2 + r * p + p ^ 2) / (p + r) ^ 3) = 1 / p + 1 / r + (r + p) / (r ^ 2 + r * p + p ^ 2) := by
    field_simp
    ring
  refine ⟨by positivity, ?_, ?_, ?_⟩
  · rw [e]
    have : 0 < (r + p) / (r ^ 2 + r * p + p ^ 2) := by positivity
    linarith
  · rw [e]
    have : (r + p) / (r ^ 2 + r * p + p ^ 2) ≤ 1 / r := by
      rw [div_le_div_iff₀ hs hr]
      nlinarith
    have h2 : 2 / r = 1 / r + 1 / r := by ring
    linarith
  · intro hpr
    rw [e]
    have : 2 / 3 / r ≤ (r + p) / (r ^ 2 + r * p + p ^ 2) := by
      rw [div_le_div_iff₀ hr hs]
      nlinarith
    have h2 : 5 / 3 / r = 1 / r + 2 / 3 / r := by ring
    linarith

/-- C310 (precision): after `k` observations of a constant with noise of variance `r` the variance of the estimate is the inverse of `1/p + k/r`. The filter reports one whose inverse is
larger, at most `1/p + 2k/r`, and, unless the initial variance is larger than the noise, at least `1/p + 5k/(3r)`. -/
theorem C310_precision (x p r : ℝ) (hp : 0 < p) (hr : 0 < r) (ys : List ℝ) :
    ∃ x' p', run x p r ys = (sv x', sm p') ∧ 0 < p' ∧ 1 / p + ys.length / r ≤ 1 / p' ∧ (ys ≠ [] → 1 / p + ys.length / r < 1 / p') ∧ 1 / p' ≤ 1 / p + 2 * ys.length / r ∧
      (p ≤ r → 1 / p + 5 / 3 * ys.length / r ≤ 1 / p') := by
  induction ys generalizing x p with
  | nil => exact ⟨x, p, rfl, hp, by simp, by simp, by simp, by simp⟩
  | cons y ys ih =>
    obtain ⟨h1, h2, h3, h4⟩ := step_precision p r hp hr
    obtain ⟨x', p', e, g1, g2, g3, g4, g5⟩ := ih (y + r / (p + r) * (x - y)) _ h1
    refine ⟨x', p', ?_, g1, ?_, ?_, ?_, ?_⟩
    · rw [← e]
      unfold run
      rw [List.foldl_cons, scalar_step x p y r hp hr]
    · rw [List.length_cons]; push_cast; rw [add_div]; linarith
    · intro _; rw [List.length_cons]; push_cast; rw [add_div]; linarith
    · rw [List.length_cons]; push_cast; rw [mul_add, add_div]; linarith
    · intro hpr
      have h6 : p * r * (r ^ 2 + r * p + p ^ 2) / (p + r) ^ 3 ≤ r := by
        have : 1 / r ≤ 1 / (p * r * (r ^ 2 + r * p + p ^ 2) / (p + r) ^ 3) := by
          have : 0 < 1 / p := by positivity
          linarith
        exact (one_div_le_one_div hr h1).1 this
      have h7 := g5 h6
      have h8 := h4 hpr
      rw [List.length_cons]
      push_cast
      rw [mul_add, add_div]
      have : 5 / 3 * 1 / r = 5 / 3 / r := by ring
      linarith

/-- C310 (initial estimate): if all the observations are `y`, the estimate after `k` of them is `y + w (x - y)`; the correct weight of the initial estimate is `r / (r + k p)`; the filter
gives it at least this weight, and more from the second observation on. -/
theorem C310_weight (x y p r : ℝ) (hp : 0 < p) (hr : 0 < r) (k : Nat) :
    ∃ w p', run x p r (List.replicate k y) = (sv (y + w * (x - y)), sm p') ∧ r / (r + k * p) ≤ w ∧ w ≤ 1 ∧ (2 ≤ k → r / (r + k * p) < w) := by
  induction k generalizing x p with
  | zero => exact ⟨1, p, by simp [run], by simp [hr.ne'], le_rfl, by simp⟩
  | succ k ih =>
    obtain ⟨h1, h2, h3, h4⟩ := step_precision p r hp hr
    set p1 := p * r * (r ^ 2 + r * p + p ^ 2) / (p + r) ^ 3 with hp1
    obtain ⟨w, p', e, g1, g2, g3⟩ := ih (y + r / (p + r) * (x - y)) p1 h1
    have hlt : p1 < p * r / (p + r) := by
      have : 1 / p + 1 / r = 1 / (p * r / (p + r)) := by field_simp; ring
      rw [this] at h2
      exact (one_div_lt_one_div (by positivity) h1).1 h2
    have hden : r + k * (p * r / (p + r)) = r * (r + (k + 1) * p) / (p + r) := by field_simp; ring
    have hle : r / (r + k * (p * r / (p + r))) ≤ r / (r + k * p1) := by
      apply div_le_div_of_nonneg_left hr.le (by positivity)
      have := mul_le_mul_of_nonneg_left hlt.le (Nat.cast_nonneg (α := ℝ) k)
      linarith
    have hfac : r / (r + ((k + 1 : Nat) : ℝ) * p) = r / (r + k * (p * r / (p + r))) * (r / (p + r)) := by
      rw [hden]
      push_cast
      field_simp
    have hpos : 0 < r / (p + r) := by positivity
    refine ⟨w * (r / (p + r)), p', ?_, ?_, ?_, ?_⟩
    · have : y + w * (r / (p + r)) * (x - y) = y + w * (y + r / (p + r) * (x - y) - y) := by ring
      rw [this, ← e]
      unfold run
      rw [List.replicate_succ, List.foldl_cons, scalar_step x p y r hp hr]
    · rw [hfac]
      exact mul_le_mul_of_nonneg_right (hle.trans g1) hpos.le
    · have : r / (p + r) ≤ 1 := by rw [div_le_one (by positivity)]; linarith
      have h0 : 0 ≤ w := le_trans (by positivity) g1
      nlinarith
    · intro hk
      rw [hfac]
      apply mul_lt_mul_of_pos_right _ hpos
      refine lt_of_lt_of_le ?_ g1
      apply div_lt_div_of_pos_left hr (by positivity)
      have hk0 : (0 : ℝ) < k := by exact_mod_cast (by omega : 0 < k)
      have := mul_lt_mul_of_pos_left hlt hk0
      linarith

end PyF.Kalman
