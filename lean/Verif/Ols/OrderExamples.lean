import Verif.Ols.Order
import Verif.Ols.Examples

namespace PyF.Ols
open Spec

/-- Four hours of two features and two targets. -/
def rows4 : List (Row 2 2) := [(![0, 0], ![1, 5]), (![1, 0], ![2, 0]), (![0, 1], ![4, 2]), (![2, 3], ![9, 3])]

theorem indep4 : Indep rows4 := by
  intro w b h
  have h0 := h (![0, 0], ![1, 5]) (by simp [rows4])
  have h1 := h (![1, 0], ![2, 0]) (by simp [rows4])
  have h2 := h (![0, 1], ![4, 2]) (by simp [rows4])
  simp [Fin.sum_univ_two] at h0 h1 h2
  refine ⟨h0, fun k => ?_⟩
  fin_cases k
  · show w 0 = 0; linarith
  · show w 1 = 0; linarith

/-- C321: features and targets exchanged; any two best models, found on either table, give the same forecast. -/
example (S S' : Solver 2 2) (hS : ∀ rs : List (Row 2 2), IsBest 0 rs (S 0 rs)) (hS' : ∀ rs : List (Row 2 2), IsBest 0 rs (S' 0 rs)) (f f' : Coef 2 2)
    (h : fit S "linear" none rows4 = .ok f) (h' : fit S' "linear" none [(![0, 0], ![5, 1]), (![0, 1], ![0, 2]), (![1, 0], ![2, 4]), (![3, 2], ![3, 9])] = .ok f') :
    pred f' ![7, 5] 0 = pred f ![5, 7] 1 := by
  have e : ∀ a b : ℝ, (fun k : Fin 2 => (![a, b] : Fin 2 → ℝ) (Equiv.swap 0 1 k)) = ![b, a] := by
    intro a b; funext k; fin_cases k <;> simp
  have := C321_columns_linear S S' none rows4 (Equiv.swap 0 1) (Equiv.swap 0 1) indep4 (hS _) (hS' _) f f' h (by
    rw [← h']; congr 1; simp [rows4, reorder, e]) ![5, 7] 0
  rwa [e, Equiv.swap_apply_left] at this

/-- C321: solvers as assumed for kind `ridge` exist, so forecasts with the features exchanged are the same. -/
example : ∃ (S : Solver 2 2) (f f' : Coef 2 2), fit S "ridge" none rows4 = .ok f ∧ fit S "ridge" none (rows4.map (reorder (Equiv.swap 0 1) (Equiv.refl _))) = .ok f' ∧
    ∀ x : Fin 2 → ℝ, pred f' (fun k => x (Equiv.swap 0 1 k)) 0 = pred f x 0 := by
  obtain ⟨S, hS⟩ := exists_solver 2 2
  exact ⟨S, _, _, rfl, rfl, fun x => C321_columns_ridge S S none rows4 (Equiv.swap 0 1) (Equiv.refl _) (by simp [trainRows, rows4]) hS hS _ _ rfl rfl x 0⟩

/-- C321: rows in reverse order. -/
example (S' : Solver 1 1) (hS' : IsBest 0 rows3.reverse (S' 0 rows3.reverse)) : S' 0 rows3.reverse = line3 :=
  C321_rows_linear (fun _ _ => line3) S' rows3 rows3.reverse (List.reverse_perm _).symm indep3 best3 hS' _ _ rfl rfl

example : ∃ S : Solver 1 1, fit S "ridge" none rows3.reverse = fit S "ridge" none rows3 := by
  obtain ⟨S, hS⟩ := exists_solver 1 1
  exact ⟨S, congrArg Except.ok (C321_rows_ridge S S rows3 rows3.reverse (List.reverse_perm _).symm (by simp [rows3]) hS hS _ _ rfl rfl)⟩

/-- C321: with a validation share the rows do count: with half of three rows kept for validation, other rows are trained on. -/
example : trainRows (some (1 / 2)) rows3.reverse ≠ trainRows (some (1 / 2)) rows3 := by
  have e : ∀ l : List (Row 1 1), l.length = 3 → trainRows (some (1 / 2)) l = l.take 2 := by
    intro l hl
    have : ⌊(l.length : ℝ) * (1 / 2)⌋ = 1 := by
      rw [hl, Int.floor_eq_iff]
      norm_num
    simp only [trainRows, this]
    rw [hl]
    rfl
  rw [e _ (by simp [rows3]), e _ (by simp [rows3])]
  intro h
  have := congrArg (fun l : List (Row 1 1) => l.map fun r => r.1 0) h
  simp [rows3] at this

end PyF.Ols
