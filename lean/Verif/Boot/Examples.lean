import Verif.Boot.Props

namespace PyF.Boot
open PyF

/-- Mean of the values as a statistic; 101 resamples of a two-valued series. -/
def exSamples : List (List Nat) := (List.range 101).map (fun (i : Nat) => if i % 2 = 0 then [7, 7] else [7, 9])

def exSeries : List (Nat × ℚ) := [7, 9].map (fun (k : Nat) => (k, (k : ℚ)))

-- C176: the hypotheses hold, the result over the first 100 resamples is 15/2 on average
example : ([7, 9] : List Nat).Nodup ∧ exSamples.length = 101 ∧ (∀ s ∈ exSamples, ∀ l ∈ s, l ∈ [7, 9]) ∧ IsLast 101 100 := by
  refine ⟨by decide, by decide +kernel, by decide +kernel, by unfold IsLast; omega⟩

example : (match bootstrap exSeries mean exSamples 101 with
    | .ok r => decide (r = (15 / 2, 1 / 4))
    | .error _ => false) = true := by decide +kernel

-- C176: 100 resamples fail
example : (match bootstrap exSeries mean (exSamples.take 100) 100 with
    | .ok _ => false
    | .error e => decide (e = .keyError)) = true := by decide +kernel

-- C176: a repeated label gives three values in a resample of two
example : (match loc [(7, 1), (7, 2)] [7, 7] with
    | .ok v => decide (v = [1, 2, 1, 2])
    | .error _ => false) = true := by decide +kernel

example : ¬ (labelsOf [(7, 1), (7, 2)]).Nodup := by decide +kernel

-- C176: the last resample may be anything
example : FromIndex exSeries exSamples ∧ FromIndex exSeries (exSamples.take 100 ++ [[9, 9]]) ∧ exSamples.take 100 = (exSamples.take 100 ++ [[9, 9]]).take 100 := by
  unfold FromIndex
  decide +kernel

end PyF.Boot
