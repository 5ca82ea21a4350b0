import Verif.HwSearch.Props

namespace PyF.HwSearch

open PyF PyF.Tune

/-- A small linear congruential generator. -/
def exGen : Gen ℕ := { seed := fun s => 7 * s + 3, uniform := fun g => ((g : ℚ) / 31, (11 * g + 5) % 31) }

/-- An error that is least for `alpha = gamma_1 = gamma_2 = 1/2`. -/
def exErr (p : ℚ × ℚ × ℚ) : Score := some ((p.1 - 1 / 2) * (p.1 - 1 / 2) + (p.2.1 - 1 / 2) * (p.2.1 - 1 / 2) + (p.2.2 - 1 / 2) * (p.2.2 - 1 / 2))

example : ((randSearch exGen exErr 2 5).toOption.map (fun r => exErr r.1)) = some (some (995 / 3844)) ∧
    ((randSearch exGen exErr 6 20).toOption.map (fun r => exErr r.1)) = some (some (395 / 3844)) := by
  decide +kernel

example : (∀ q ∈ testPars exGen (exGen.seed 0) 6, exErr q ≠ none) := by decide +kernel

/-- The numbers after the search do not depend on the state before it. -/
example : ((randSearch exGen exErr 2 5).toOption.map (fun r => (List.range 4).map (number exGen r.2))) =
    ((randSearch exGen exErr 2 20).toOption.map (fun r => (List.range 4).map (number exGen r.2))) ∧
    (List.range 4).map (number exGen 5) ≠ (List.range 4).map (number exGen 20) := by
  decide +kernel

end PyF.HwSearch
