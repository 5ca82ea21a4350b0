import Verif.Quantile.Coverage

namespace PyF.Quantile
open PyF

/-- Errors 3, 1, 2, 5 of forecasts of zero, all at the hour 7. -/
def covRows : List (TrainRow Unit 1) := [3, 1, 2, 5].map (fun (y : ℚ) => ⟨(), 7, fun _ => y⟩)

/-- The forecast of the level 1/2 of row `i` from the errors of the others. -/
def covHalf (i : Nat) : Option ℚ :=
  match covRows[i]? with
  | none => none
  | some r => match fitErr (fun _ _ => 0) true [1 / 2] (covRows.eraseIdx i) with
    | .error _ => none
    | .ok ed => match predictQuantiles (fun _ _ => 0) ed [(r.x, r.hour)] with
      | .ok [Q] => (Q 0)[0]?
      | _ => none

-- C308: the forecasts of level 1/2 are 2, 3, 3, 2: two of the four observations 3, 1, 2, 5 are below, more than 1/2 * 2 and fewer than 1/2 * 2 + 2
example : (List.range 4).map covHalf = [some 2, some 3, some 3, some 2] := by decide +kernel

example : 2 ≤ covRows.length ∧ (∀ r ∈ covRows, r.hour ≠ 3) ∧ ValidLevels [1 / 2] ∧ (covRows.map (fun r => r.y 0)).Nodup := by
  refine ⟨by decide +kernel, by decide +kernel, ?_, by decide +kernel⟩
  intro q hq
  rw [List.mem_singleton.1 hq]
  norm_num

/-- Two rows for every hour. -/
def covDay : List (TrainRow Unit 1) := (List.finRange 24).flatMap (fun h => [⟨(), h, fun _ => 1⟩, ⟨(), h, fun _ => 2⟩])

-- C308: the hypothesis of the hourly statement, with distinct errors in every hour
example : (∀ h : Fin 24, 2 ≤ ((Finset.univ : Finset (Fin covDay.length)).filter (fun i => covDay[i].hour = h)).card)
    ∧ ∀ i k : Fin covDay.length, covDay[i].hour = covDay[k].hour → covDay[i].y 0 = covDay[k].y 0 → i = k := by
  refine ⟨?_, ?_⟩ <;> decide +kernel

end PyF.Quantile
