import Verif.CatSel.Props

/-! Examples for C316. -/

namespace PyF.CatSel

/-- Four rows: a flag with a gap, a measured value, a column without values. -/
def exDf : List (String × List (Option ℕ)) :=
  [("flag", [some 0, some 1, none, some 1]), ("power", [some 5, some 7, some 6, some 9]), ("empty", [none, none, none, none])]

example : autoCat exDf 2 = ["flag", "empty"] := by decide +kernel
example : autoCat exDf defaultMax = ["flag", "power", "empty"] := by decide +kernel
example : autoCat exDf 0 = ["empty"] := by decide +kernel
example : (2 : ℤ) < 4 ∧ "power" ∉ autoCat exDf 2 := by decide +kernel
/-- The hypothesis of `C316_short`. -/
example : ∀ p ∈ exDf, (p.2.length : ℤ) ≤ defaultMax := by decide +kernel
/-- The hypothesis of `C316_fewer_rows`: the first two rows, where `power` has two values and is chosen too. -/
example : ∀ c : List (Option ℕ), c.take 2 ⊆ c := fun c => List.take_subset 2 c
example : autoCat (exDf.map (fun p => (p.1, p.2.take 2))) 2 = ["flag", "power", "empty"] := by decide +kernel
/-- The hypothesis of `C316_recoded`. -/
example : ∀ _ : String, Function.Injective (fun v : ℕ => v + 3) := fun _ _ _ h => by simpa using h

/-- C316 (default): the 25 different values of the hours of a day and a bit are too many. -/
example : autoCat [("hour", (List.range 24).map some), ("step", (List.range 25).map some)] defaultMax = ["hour"] := by decide +kernel

end PyF.CatSel
