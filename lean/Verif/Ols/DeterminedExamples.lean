import Verif.Ols.Determined
import Verif.Ols.Examples

namespace PyF.Ols
open Spec

/-- The rows of `rows3` with the feature given twice (the raw column kept by `augment` and its lag 0). -/
def rows3x2 : List (Row 2 1) := [(![1, 1], ![2]), (![2, 2], ![4]), (![3, 3], ![7])]

/-- C322: equal features four are a mixture of the rows, different ones are not. -/
theorem mixture_equal : Mixture rows3x2 ![4, 4] :=
  ⟨![0, -1, 2], by show ∑ i : Fin 3, _ = _; simp [Fin.sum_univ_three]; norm_num, fun k => by
    show ∑ i : Fin 3, _ = _
    fin_cases k <;> simp [Fin.sum_univ_three, rows3x2] <;> norm_num⟩

theorem mixture_different : ¬ Mixture rows3x2 ![4, 5] := by
  rintro ⟨a, -, h⟩
  have h0 := h 0
  have h1 := h 1
  change ∑ i : Fin 3, _ = _ at h0
  change ∑ i : Fin 3, _ = _ at h1
  simp [Fin.sum_univ_three, rows3x2] at h0 h1
  linarith

/-- A best model of these rows, one of many. -/
noncomputable def line3x2 : Coef 2 1 := ⟨![![5 / 2, 0]], ![-2 / 3]⟩

theorem best3x2 : IsBest 0 rows3x2 line3x2 := by
  apply best_of_normal le_rfl
  intro j
  fin_cases j
  refine ⟨?_, fun k => ?_⟩
  · simp [rows3x2, line3x2, err, pred]; norm_num
  · fin_cases k <;> simp [rows3x2, line3x2, err, pred] <;> norm_num

/-- C322: every correct routine forecasts `28/3` for `(4, 4)`; for `(4, 5)` they differ. -/
example : (∀ (S' : Solver 2 1), IsBest 0 rows3x2 (S' 0 rows3x2) → pred (S' 0 rows3x2) ![4, 4] 0 = 28 / 3) ∧
    ∃ S' : Solver 2 1, IsBest 0 rows3x2 (S' 0 rows3x2) ∧ pred (S' 0 rows3x2) ![4, 5] 0 ≠ pred line3x2 ![4, 5] 0 := by
  constructor
  · intro S' hS'
    have e := (C322_determined (fun _ _ => line3x2) none rows3x2 best3x2 line3x2 rfl ![4, 4] 0).2 mixture_equal S' (S' 0 rows3x2) hS' rfl
    rw [e]
    simp [pred, line3x2]
    norm_num
  · by_contra H
    push Not at H
    exact mixture_different ((C322_determined (fun _ _ => line3x2) none rows3x2 best3x2 line3x2 rfl ![4, 5] 0).1 (fun S' f' hS' hf' => by
      obtain rfl := Except.ok.inj hf'
      exact H S' hS'))

/-- C322: giving the feature twice changes no forecast. -/
example (S : Solver 2 1) (hS : IsBest 0 (rows3.map fun r : Row 1 1 => (complete ![![1], ![1]] ![0, 0] r.1, r.2))
      (S 0 (rows3.map fun r : Row 1 1 => (complete ![![1], ![1]] ![0, 0] r.1, r.2)))) (z : Fin 1 → ℝ) :
    pred (S 0 (rows3.map fun r : Row 1 1 => (complete ![![1], ![1]] ![0, 0] r.1, r.2))) (complete ![![1], ![1]] ![0, 0] z) 0 = pred line3 z 0 :=
  C322_redundant S (fun _ _ => line3) none rows3 ![![1], ![1]] ![0, 0] ![0] (fun z l => by fin_cases l; simp [complete]) indep3 hS best3 _ _ rfl rfl z 0

/-- C323: on the rows of `rows3` the line has squared errors `1/6`, the mean `38/3`, the feature itself `21`. -/
example : (rows3.map fun r : Row 1 1 => (r.2 0 - pred line3 r.1 0) ^ 2).sum = 1 / 6 ∧ (rows3.map fun r : Row 1 1 => (r.2 0 - 13 / 3) ^ 2).sum = 38 / 3 ∧
    (rows3.map fun r : Row 1 1 => (r.2 0 - r.1 0) ^ 2).sum = 21 := by
  refine ⟨?_, ?_, ?_⟩ <;> simp [rows3, pred, line3] <;> norm_num

example (b : ℝ) : (rows3.map fun r : Row 1 1 => (r.2 0 - pred line3 r.1 0) ^ 2).sum ≤ (rows3.map fun r : Row 1 1 => (r.2 0 - b) ^ 2).sum :=
  (C323_no_worse (fun _ _ => line3) none rows3 best3 line3 rfl 0).2.2 b

/-- C323: no features against one. -/
example (S' : Solver 0 1) : sse rows3 line3 ≤ sse (rows3.map fun r : Row 1 1 => (fun l : Fin 0 => r.1 (l.elim0), r.2))
    (S' 0 (rows3.map fun r : Row 1 1 => (fun l : Fin 0 => r.1 (l.elim0), r.2))) :=
  C323_more_features (fun _ _ => line3) S' none rows3 (fun l => l.elim0) best3 line3 _ rfl rfl

/-- C323 is about the training rows: on a later row the line of `rows3` can be worse than the feature itself. -/
example : (4 - pred line3 ![4] 0) ^ 2 > (4 - (![4] : Fin 1 → ℝ) 0) ^ 2 := by
  simp [pred, line3]
  norm_num

end PyF.Ols
