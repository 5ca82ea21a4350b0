import Verif.Sampling.Gaps
import Verif.Sampling.Discrete
import Mathlib.Data.List.Lex

/-! Concrete instances for C244-C247. -/

namespace PyF.Sampling

open PyF Spec

/-- Quarter hours with two rows missing. -/
example : inferDt [0, 15, 30, 75, 90, 105] = some 15 := C244_majority _ 15 (by decide)

example : inferDt [0, 15, 45, 60, 90] ≠ some 15 := by
  rw [Ne, C244_missing_rows_iff _ 15 (by norm_num) (by decide)]
  decide

/-- Two stacked series: most steps of the stamps as they come are zero. -/
example : inferDt [0, 0, 0, 15, 15, 15] = some 0 := C244_majority _ 0 (by decide)

example : samplingTime [0, 0, 0, 15, 15, 15] = some 15 := by decide +kernel

example : inferDt [7] = none := (C244_undefined [7]).1.2 (by decide)

example : samplingTime [7, 7, 7] = none := (C244_undefined [7, 7, 7]).2.2 (by decide)

/-- A series on a grid of step 10 with the row of time 30 missing. -/
def exSeries : Series := [(0, some 1), (10, some 2), (20, some 4), (40, some 8), (50, some 16), (60, some 32)]

theorem exInc : Increasing exSeries := by unfold Increasing exSeries; decide

theorem exGrid : OnGrid 10 exSeries := by unfold OnGrid exSeries; decide

/-- The sum of three steps ending at 60, and the same window across the gap. -/
example : rollAt exSeries 30 3 (fun l => some l.sum) 5 = some 56 := by
  have h := C245_aggregate exSeries 10 (by norm_num) exInc exGrid 3 (fun l => some l.sum) 5 (by decide)
  have h2 : aggSteps ((3 : ℕ) * 10) 10 = 3 := by decide
  rw [h2] at h
  refine h.trans ?_
  rw [if_neg (by decide +kernel)]
  decide +kernel

example : rollAt exSeries ((3 : ℕ) * 10) (aggSteps ((3 : ℕ) * 10) 10) (fun l => some l.sum) 4 = none := by
  rw [C245_aggregate exSeries 10 (by norm_num) exInc exGrid 3 _ 4 (by decide), if_pos]
  exact ⟨2, by norm_num, by decide +kernel⟩

/-- Lag 2 at time 50 is the value of time 20, not of time 30. -/
example : shiftAt exSeries (2 : ℕ) 4 = valueAt exSeries 20 ∧ stampAt exSeries (4 - 2) ≠ stampAt exSeries 4 - (2 : ℕ) * 10 := by
  obtain ⟨h1, -, h3⟩ := C245_lag exSeries 10 exInc exGrid 4 2 (by norm_num) (by decide)
  refine ⟨h1, ?_⟩
  rw [Ne, h3]
  intro h
  exact absurd (h 0 (by norm_num)) (by decide)

/-- The target one step ahead of time 20 is the value of time 40. -/
example : shiftAt exSeries (-(1 : ℕ)) 2 = valueAt exSeries 40 := (C245_lead exSeries 10 exInc exGrid 2 1 (by decide)).1

/-! ### The discrete distribution -/

/-- One hour. -/
def hour : ℤ := 3600000000000

/-- Two days of three hours each with alternating values. -/
def exIndex : List ℤ := [0, hour, 2 * hour, day, day + hour, day + 2 * hour]

def exY : List (ℤ × (Fin 1 → ℚ)) := exIndex.zipIdx.map (fun e => (e.1, fun _ => (e.2 : ℚ)))

theorem exStep : samplingTime exIndex = some hour := by decide +kernel

def exFitted : Fitted ℕ 1 := ⟨exY.map (fun r => ⟨cellOf hour r.1, r.2⟩), fun _ => 0⟩

theorem exFit : fit exIndex exY (fun _ => 0) = .ok exFitted := by
  unfold fit
  rw [exStep]
  rfl

/-- At one o'clock of the tenth day: the average of 1 and 4. -/
example : Bench.discPredict exFitted.rows (cellOf hour (9 * day + hour)) 0 = 5 / (2 + 1 / 10 ^ 12) := by
  rw [C246_same_step exIndex exY _ exFitted exFit hour (by decide) (by decide) exStep]
  decide +kernel

/-- The same with the length of the day written out. -/
example : Bench.discPredict exFitted.rows (cellOf hour (9 * day + hour)) 0 = 5 / (2 + 1 / 10 ^ 12) := by
  rw [C246_daily exIndex exY _ exFitted exFit hour (by decide) (by decide) exStep]
  decide +kernel

/-- A frame of two-hour steps at odd hours: at one o'clock the forecast is the one of midnight. -/
example : Bench.discPredict exFitted.rows (cellOf (2 * hour) (9 * day + hour)) 0 = 3 / (2 + 1 / 10 ^ 12) := by
  rw [(C246_coarser exIndex exY _ exFitted exFit hour (2 * hour) (by decide) (by decide) (by decide) (by decide) exStep _ 0).1]
  decide +kernel

/-- A frame of half hours: nothing at half past one. -/
example : Bench.discPredict exFitted.rows (cellOf (hour / 2) (9 * day + hour + hour / 2)) 0 = 0 := by
  rw [C246_finer exIndex exY _ exFitted exFit hour (hour / 2) (by decide) (by decide) (by decide) (by decide) exStep, if_neg (by decide)]

example : predict exFitted [hour] = .error .valueError := (C247_frame exFitted [hour]).1.2 (by decide)

/-- Digits of the third and the eleventh step as names: the columns are swapped. -/
def exNames (i : Fin 2) : List ℕ := if i = 0 then [2] else [1, 0]

example (o : Out (List ℕ)) (h : predict (⟨[], exNames⟩ : Fitted (List ℕ) 2) exIndex = .ok o) : o.columns ≠ List.ofFn exNames := by
  rw [Ne, C247_order_iff _ exIndex o h]
  intro h2
  exact absurd (h2 0 1 (by decide)) (by decide)

-- C244: a regular index
example : inferDt (Spec.grid 7 900 5) = some 900 ∧ samplingTime (Spec.grid 7 900 5) = some 900 := C244_regular 7 900 (by norm_num) 5 (by norm_num)

end PyF.Sampling
