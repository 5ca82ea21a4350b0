import Verif.EsFreq.Props
import Mathlib.Tactic.IntervalCases

namespace PyF.EsFreq

open PyF PyF.Statsmodels

/-- A model that repeats the last value it has seen. -/
def exLib : Lib ℚ (ℤ × Option ℚ) where
  append := fun m o => some (o.2.getD m)
  apply := fun m o => o.2.getD m
  forecast := fun m n => List.replicate n m

/-- Every six hours for two days and a half, times in hours. -/
def exFull : Col := [(0, some 1), (6, some 2), (12, some 3), (18, some 4), (24, some 5), (30, some 6), (36, some 7), (42, some 8), (48, some 9), (54, some 10)]

/-- The same with the row at 12 missing. -/
def exGap : Col := [(0, some 1), (6, some 2), (18, some 4), (24, some 5), (30, some 6), (36, some 7), (42, some 8), (48, some 9), (54, some 10)]

example : (predict exLib 24 (fun _ => none) 1 0 exFull).toOption
    = some [(0, [0]), (6, [1]), (12, [2]), (18, [3]), (24, [4]), (30, [5]), (36, [6]), (42, [7]), (48, [8]), (54, [9])] := by decide +kernel

/-- One row missing, and the forecasts are daily. -/
example : (predict exLib 24 (fun _ => none) 1 0 exGap).toOption = some [(0, [0]), (24, [1]), (48, [5])] := by decide +kernel

theorem exGap_steps : ∀ (k : ℕ) (h : k + 1 < (exGap.map Prod.fst).length), 6 ≤ (exGap.map Prod.fst)[k + 1] - (exGap.map Prod.fst)[k] := by
  intro k h
  have hk : k + 1 < 9 := by simpa [exGap] using h
  have hk : k < 8 := by omega
  interval_cases k <;> decide +revert

theorem exTake_steps : ∀ (k : ℕ) (h : k + 1 < ((exGap.take 6).map Prod.fst).length), 6 ≤ ((exGap.take 6).map Prod.fst)[k + 1] - ((exGap.take 6).map Prod.fst)[k] := by
  intro k h
  have hk : k + 1 < 6 := by simpa [exGap] using h
  have hk : k < 5 := by omega
  interval_cases k <;> decide +revert

example : ∃ p, predict exLib 24 (fun _ => none) 1 0 exGap = .ok p ∧ p.map Prod.fst = (List.range (((54 - 0 : ℤ) / 24).toNat + 1)).map (fun (k : ℕ) => (0 : ℤ) + (k : ℤ) * 24) := by
  obtain ⟨p, h1, h2, _⟩ := C334_gap exLib 24 (fun _ => none) 1 0 exGap 0 54 6 (by decide) (by decide) (by decide) (by decide) (by decide) (by decide)
    ⟨0, by decide, by decide⟩ exGap_steps ⟨1, by decide, by decide⟩ (by decide)
  exact ⟨p, h1, h2⟩

/-- The training frame of a day and a half with a row missing. -/
example : fit exLib 24 (fun _ => none) 1 (fun _ => 0) (exGap.take 6) = .error .valueError :=
  C334_gap_fit exLib 24 (by decide) (fun _ => none) 1 (fun _ => 0) (exGap.take 6) 0 36 6 (by decide) (by decide) (by decide) (by decide) (by decide) (by decide)
    ⟨0, by decide, by decide⟩ exTake_steps ⟨1, by decide, by decide⟩ (by decide) (by decide)

end PyF.EsFreq
