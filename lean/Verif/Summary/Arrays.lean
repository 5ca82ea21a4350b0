import Verif.Summary.Props

namespace PyF.Summary
open PyF

/-- C168: an array takes the labels of the frame it is compared with, and its values by position; two arrays are refused with `AttributeError`, other
shapes with `ValueError`. Columns and time stamps of an array do not exist, so nothing is checked beyond the shape. -/
theorem C168_arrays (d : DF) (n m : Nat) (v : Vals) (k : Metric) (agg : List (Option Lab)) :
    (n = d.index.length ∧ m = d.cols.length →
      (summaryScore (.arr n m v) (.df d) k agg).2 = (summaryScore (.df { d with val := v }) (.df d) k agg).2 ∧
      (summaryScore (.df d) (.arr n m v) k agg).2 = (summaryScore (.df d) (.df { d with val := v }) k agg).2) ∧
      (¬ (n = d.index.length ∧ m = d.cols.length) →
        (summaryScore (.arr n m v) (.df d) k agg).2 = .error .valueError ∧ (summaryScore (.df d) (.arr n m v) k agg).2 = .error .valueError) ∧
      ∀ n' m' v', (summaryScore (.arr n m v) (.arr n' m' v') k agg).2 = .error .attributeError := by
  refine ⟨fun h => ?_, fun h => ?_, fun _ _ _ => rfl⟩
  · constructor <;> simp [summaryScore, prepare, h]
  · constructor <;> simp only [summaryScore, prepare, if_neg h]

example : (summaryScore (.arr 2 1 (fun i _ => some i)) (.df ⟨[1, 2], ["a"], fun _ _ => some 0⟩) .rmse [some (.num 0), some (.num 0)]).2.toOption.map (fun s => s.val (.num 0) 0) =
    some (some (1 / 2)) := by decide +kernel

end PyF.Summary
