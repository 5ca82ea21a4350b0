import Verif.Boot.Expect

namespace PyF.Boot

-- C307: the hypotheses hold for a series of three rows and 700 resamples, of which 600 are used
example : ([4, 7, 9] : List Nat).Nodup ∧ ([4, 7, 9] : List Nat) ≠ [] ∧ IsLast 700 600 := ⟨by decide, by decide, by unfold IsLast; omega⟩

-- C307: the draw of the positions 1, 1, 0 takes the labels 7, 7, 4
example : draws [4, 7, 9] (fun (_ : Fin 2) (j : Fin 3) => if j = 2 then 0 else 1) = [[7, 7, 4], [7, 7, 4]] := by decide +kernel

-- C307: over the 27 resamples of the values 1, 2, 6 the mean is 3 on average, its variance (14/3)/3 = 14/9
example : avg (fun s : Fin 3 → Fin 3 => ((List.ofFn (fun j => ([1, 2, 6] : List ℚ).get (s j))).sum / 3)) = 3
    ∧ avg (fun s : Fin 3 → Fin 3 => ((List.ofFn (fun j => ([1, 2, 6] : List ℚ).get (s j))).sum / 3 - 3) ^ 2) = 14 / 9
    ∧ avg (fun k : Fin 3 => (([1, 2, 6] : List ℚ).get k - 3) ^ 2) / 3 = 14 / 9 := by decide +kernel

end PyF.Boot
