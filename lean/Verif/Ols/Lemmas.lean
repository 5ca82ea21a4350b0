import Verif.Ols.Spec
import Mathlib.Tactic.Linarith
import Mathlib.Tactic.Ring
import Mathlib.Tactic.FieldSimp

/-! The normal equations of the linear forecaster. -/

namespace PyF.Ols
open Spec

variable {d m : ℕ}

/-- The normal equations: errors sum to zero, and sum to `α w` when weighted by a feature. -/
def Normal (α : ℝ) (rows : List (Row d m)) (c : Coef d m) : Prop :=
  ∀ j : Fin m, (rows.map (err c j)).sum = 0 ∧ ∀ k : Fin d, (rows.map fun r : Row d m => err c j r * r.1 k).sum = α * c.w j k

/-- Model moved by `s` times another one. -/
noncomputable def move (c v : Coef d m) (s : ℝ) : Coef d m := ⟨fun j k => c.w j k + s * v.w j k, fun j => c.b j + s * v.b j⟩

theorem pred_move (c v : Coef d m) (s : ℝ) (x : Fin d → ℝ) (j : Fin m) : pred (move c v s) x j = pred c x j + s * pred v x j := by
  have h : ∑ k, (c.w j k + s * v.w j k) * x k = ∑ k, c.w j k * x k + s * ∑ k, v.w j k * x k := by
    rw [Finset.mul_sum, ← Finset.sum_add_distrib]
    exact Finset.sum_congr rfl fun k _ => by ring
  simp only [pred, move, h]
  ring

/-- Slope of the loss in a direction. -/
noncomputable def slope (α : ℝ) (rows : List (Row d m)) (c v : Coef d m) : ℝ :=
  (rows.map fun r : Row d m => ∑ j, err c j r * pred v r.1 j).sum - α * ∑ j, ∑ k, c.w j k * v.w j k

theorem loss_move (α : ℝ) (rows : List (Row d m)) (c v : Coef d m) (s : ℝ) :
    loss α rows (move c v s) = loss α rows c - 2 * s * slope α rows c v
      + s ^ 2 * ((rows.map fun r : Row d m => ∑ j, (pred v r.1 j) ^ 2).sum + α * ∑ j, ∑ k, v.w j k ^ 2) := by
  have hrow : ∀ r : Row d m, ∑ j, (r.2 j - pred (move c v s) r.1 j) ^ 2
      = ∑ j, (r.2 j - pred c r.1 j) ^ 2 - 2 * s * ∑ j, err c j r * pred v r.1 j + s ^ 2 * ∑ j, (pred v r.1 j) ^ 2 := by
    intro r
    rw [Finset.mul_sum, Finset.mul_sum, ← Finset.sum_sub_distrib, ← Finset.sum_add_distrib]
    exact Finset.sum_congr rfl fun j _ => by rw [pred_move]; simp only [err]; ring
  have hrows : (rows.map fun r : Row d m => ∑ j, (r.2 j - pred (move c v s) r.1 j) ^ 2).sum
      = (rows.map fun r : Row d m => ∑ j, (r.2 j - pred c r.1 j) ^ 2).sum
        - 2 * s * (rows.map fun r : Row d m => ∑ j, err c j r * pred v r.1 j).sum
        + s ^ 2 * (rows.map fun r : Row d m => ∑ j, (pred v r.1 j) ^ 2).sum := by
    induction rows with
    | nil => simp
    | cons r rs ih =>
      simp only [List.map_cons, List.sum_cons, hrow r, ih]
      ring
  have hw : ∑ j, ∑ k, (move c v s).w j k ^ 2
      = ∑ j, ∑ k, c.w j k ^ 2 + 2 * s * ∑ j, ∑ k, c.w j k * v.w j k + s ^ 2 * ∑ j, ∑ k, v.w j k ^ 2 := by
    simp only [Finset.mul_sum, ← Finset.sum_add_distrib]
    exact Finset.sum_congr rfl fun j _ => Finset.sum_congr rfl fun k _ => by simp only [move]; ring
  simp only [loss, hrows, hw, slope]
  ring

theorem lin_zero {B Q : ℝ} (h : ∀ s : ℝ, 0 ≤ -2 * s * B + s ^ 2 * Q) : B = 0 := by
  by_contra hB
  have hpos : 0 < B ^ 2 := by positivity
  by_cases hQ : Q ≤ 0
  · have := h B
    nlinarith [mul_nonneg (sq_nonneg B) (neg_nonneg.2 hQ)]
  · have hQ' : 0 < Q := lt_of_not_ge hQ
    have h1 := h (B / Q)
    have h2 : -2 * (B / Q) * B + (B / Q) ^ 2 * Q = -(B ^ 2 / Q) := by field_simp; ring
    rw [h2] at h1
    have : 0 < B ^ 2 / Q := div_pos hpos hQ'
    linarith

theorem slope_zero {α : ℝ} {rows : List (Row d m)} {c : Coef d m} (h : IsBest α rows c) (v : Coef d m) : slope α rows c v = 0 := by
  apply lin_zero (Q := (rows.map fun r : Row d m => ∑ j, (pred v r.1 j) ^ 2).sum + α * ∑ j, ∑ k, v.w j k ^ 2)
  intro s
  have := h (move c v s)
  rw [loss_move] at this
  linarith

theorem sum_comm_rows (rows : List (Row d m)) (n : ℕ) (f : Fin n → Row d m → ℝ) :
    (rows.map fun r : Row d m => ∑ j, f j r).sum = ∑ j, (rows.map (f j)).sum := by
  induction rows with
  | nil => simp
  | cons r rs ih => simp only [List.map_cons, List.sum_cons, ih, Finset.sum_add_distrib]

/-- The slope in terms of the two families of the normal equations. -/
theorem slope_eq (α : ℝ) (rows : List (Row d m)) (c v : Coef d m) :
    slope α rows c v = ∑ j, (v.b j * (rows.map (err c j)).sum
      + ∑ k, v.w j k * ((rows.map fun r : Row d m => err c j r * r.1 k).sum - α * c.w j k)) := by
  have h1 : ∀ j : Fin m, (rows.map fun r : Row d m => err c j r * pred v r.1 j).sum
      = v.b j * (rows.map (err c j)).sum + ∑ k, v.w j k * (rows.map fun r : Row d m => err c j r * r.1 k).sum := by
    intro j
    induction rows with
    | nil => simp
    | cons r rs ih =>
      have hr : err c j r * pred v r.1 j = v.b j * err c j r + ∑ k, v.w j k * (err c j r * r.1 k) := by
        rw [pred, mul_add, Finset.mul_sum, mul_comm]
        exact congrArg₂ _ rfl (Finset.sum_congr rfl fun k _ => by ring)
      rw [List.map_cons, List.sum_cons, ih, hr]
      simp only [List.map_cons, List.sum_cons, mul_add, Finset.sum_add_distrib]
      ring
  rw [slope, sum_comm_rows, Finset.mul_sum, ← Finset.sum_sub_distrib]
  refine Finset.sum_congr rfl fun j _ => ?_
  rw [h1 j, Finset.mul_sum]
  simp only [mul_sub, Finset.sum_sub_distrib]
  have : ∑ k, α * (c.w j k * v.w j k) = ∑ k, v.w j k * (α * c.w j k) := Finset.sum_congr rfl fun k _ => by ring
  rw [this]
  ring

theorem normal_of_best {α : ℝ} {rows : List (Row d m)} {c : Coef d m} (h : IsBest α rows c) : Normal α rows c := by
  classical
  intro j
  refine ⟨?_, fun k => ?_⟩
  · have := slope_zero h ⟨fun _ _ => 0, fun j' => if j' = j then 1 else 0⟩
    rw [slope_eq] at this
    simpa using this
  · have := slope_zero h ⟨fun j' k' => if j' = j ∧ k' = k then 1 else 0, fun _ => 0⟩
    rw [slope_eq] at this
    simp only [zero_mul, zero_add, ite_mul, one_mul] at this
    rw [Finset.sum_eq_single j (fun j' _ hj' => by simp [hj']) (by simp), Finset.sum_eq_single k (fun k' _ hk' => by simp [hk']) (by simp)] at this
    simp only [and_self, if_true] at this
    linarith

theorem move_sub (c c' : Coef d m) : move c ⟨fun j k => c'.w j k - c.w j k, fun j => c'.b j - c.b j⟩ 1 = c' := by
  cases c; cases c'
  simp [move]

theorem sum_sq_nonneg (rows : List (Row d m)) (v : Coef d m) : 0 ≤ (rows.map fun r : Row d m => ∑ j, (pred v r.1 j) ^ 2).sum := by
  apply List.sum_nonneg
  intro x hx
  obtain ⟨r, _, rfl⟩ := List.mem_map.1 hx
  exact Finset.sum_nonneg fun j _ => sq_nonneg _

theorem slope_of_normal {α : ℝ} {rows : List (Row d m)} {c : Coef d m} (h : Normal α rows c) (v : Coef d m) : slope α rows c v = 0 := by
  rw [slope_eq]
  refine Finset.sum_eq_zero fun j _ => ?_
  rw [(h j).1, Finset.sum_eq_zero fun k _ => by rw [(h j).2 k]; ring]
  ring

theorem best_of_normal {α : ℝ} (hα : 0 ≤ α) {rows : List (Row d m)} {c : Coef d m} (h : Normal α rows c) : IsBest α rows c := by
  intro c'
  rw [← move_sub c c', loss_move, slope_of_normal h]
  have h1 := sum_sq_nonneg rows (⟨fun j k => c'.w j k - c.w j k, fun j => c'.b j - c.b j⟩ : Coef d m)
  have h2 : 0 ≤ α * ∑ j, ∑ k, (c'.w j k - c.w j k) ^ 2 :=
    mul_nonneg hα (Finset.sum_nonneg fun j _ => Finset.sum_nonneg fun k _ => sq_nonneg _)
  simp only [one_pow, one_mul, mul_zero, sub_zero]
  linarith

/-- Two solutions agree on all fitted rows, and in the weights when these are penalised. -/
theorem normal_unique {α : ℝ} (hα : 0 ≤ α) {rows : List (Row d m)} {c c' : Coef d m} (h : Normal α rows c) (h' : Normal α rows c') :
    (∀ r ∈ rows, ∀ j, pred c' r.1 j = pred c r.1 j) ∧ (0 < α → ∀ j k, c'.w j k = c.w j k) := by
  set v : Coef d m := ⟨fun j k => c'.w j k - c.w j k, fun j => c'.b j - c.b j⟩ with hv
  have hm : move c v 1 = c' := move_sub c c'
  have hp : ∀ x j, pred c' x j = pred c x j + pred v x j := by
    intro x j
    rw [← hm, pred_move, one_mul]
  have e1 := loss_move α rows c v 1
  have e2 := best_of_normal hα h' c
  rw [hm, slope_of_normal h] at e1
  have n1 := sum_sq_nonneg rows v
  have n2 : 0 ≤ ∑ j, ∑ k, v.w j k ^ 2 := Finset.sum_nonneg fun j _ => Finset.sum_nonneg fun k _ => sq_nonneg _
  have n3 : 0 ≤ α * ∑ j, ∑ k, v.w j k ^ 2 := mul_nonneg hα n2
  have z1 : (rows.map fun r : Row d m => ∑ j, (pred v r.1 j) ^ 2).sum = 0 := by linarith
  have z2 : α * ∑ j, ∑ k, v.w j k ^ 2 = 0 := by linarith
  constructor
  · intro r hr j
    have hz : ∀ rs : List (Row d m), (rs.map fun r : Row d m => ∑ j, (pred v r.1 j) ^ 2).sum = 0 → ∀ r ∈ rs, ∑ j, (pred v r.1 j) ^ 2 = 0 := by
      intro rs
      induction rs with
      | nil => intro _ r hr; cases hr
      | cons a as ih =>
        intro h0 r hr
        rw [List.map_cons, List.sum_cons] at h0
        have a1 := sum_sq_nonneg as v
        have a2 : 0 ≤ ∑ j, (pred v a.1 j) ^ 2 := Finset.sum_nonneg fun j _ => sq_nonneg _
        rcases List.mem_cons.1 hr with rfl | hr
        · linarith
        · exact ih (by linarith) r hr
    have h0 := hz rows z1 r hr
    have := (Finset.sum_eq_zero_iff_of_nonneg fun j _ => sq_nonneg (pred v r.1 j)).1 h0 j (Finset.mem_univ j)
    rw [hp, pow_eq_zero_iff (two_ne_zero)  |>.1 this, add_zero]
  · intro hpos j k
    have z3 : ∑ j, ∑ k, v.w j k ^ 2 = 0 := by
      rcases mul_eq_zero.1 z2 with h | h
      · exact absurd h hpos.ne'
      · exact h
    have z4 := (Finset.sum_eq_zero_iff_of_nonneg fun j _ => Finset.sum_nonneg fun k _ => sq_nonneg (v.w j k)).1 z3 j (Finset.mem_univ j)
    have z5 := (Finset.sum_eq_zero_iff_of_nonneg fun k _ => sq_nonneg (v.w j k)).1 z4 k (Finset.mem_univ k)
    have z6 : v.w j k = 0 := pow_eq_zero_iff (two_ne_zero) |>.1 z5
    have z7 : c'.w j k - c.w j k = 0 := z6
    linarith

/-- With a row to fit, a penalised model is unique. -/
theorem normal_unique_pos {α : ℝ} (hα : 0 < α) {rows : List (Row d m)} (hne : rows ≠ []) {c c' : Coef d m} (h : Normal α rows c)
    (h' : Normal α rows c') : c' = c := by
  obtain ⟨h1, h2⟩ := normal_unique hα.le h h'
  have hw : c'.w = c.w := funext fun j => funext fun k => h2 hα j k
  have hb : c'.b = c.b := by
    funext j
    obtain ⟨r, hr⟩ := List.exists_mem_of_ne_nil rows hne
    have := h1 r hr j
    simp only [pred, hw] at this
    linarith
  cases c; cases c'
  simp_all

/-- Without penalty the model is unique when the features are independent on the rows. -/
theorem normal_unique_indep {rows : List (Row d m)} (hI : Indep rows) {c c' : Coef d m} (h : Normal 0 rows c) (h' : Normal 0 rows c') : c' = c := by
  obtain ⟨h1, -⟩ := normal_unique le_rfl h h'
  have key : ∀ j, c'.b j - c.b j = 0 ∧ ∀ k, c'.w j k - c.w j k = 0 := by
    intro j
    apply hI
    intro r hr
    have := h1 r hr j
    simp only [pred] at this
    simp only [sub_mul, Finset.sum_sub_distrib]
    linarith
  have hw : c'.w = c.w := funext fun j => funext fun k => sub_eq_zero.1 ((key j).2 k)
  have hb : c'.b = c.b := funext fun j => sub_eq_zero.1 (key j).1
  cases c; cases c'
  simp_all

end PyF.Ols
