import Verif.Kfcv.Overlap

namespace PyF.Kfcv

-- C306: ten stamps, three folds: windows of 4, starts 0, 2 and 5; the rows 2, 3 and 4 are tested by folds 0 and 1
example : (kfcv [0, 1, 2, 3, 4, 5, 6, 7, 8, 9] 3 1 [[0]]).toOption.map (fun l => l.map Prod.snd)
    = some [[true, true, true, true, true, false, false, false, false, false], [false, false, true, true, true, true, true, false, false, false],
      [false, false, false, false, false, true, true, true, true, true]] := by decide +kernel

example : ([0, 1, 2, 3, 4, 5, 6, 7, 8, 9] : List Int).Pairwise (· ≤ ·) := by decide

-- C306: the same folds ten units later
example : (kfcv [10, 11, 12, 13, 14] 3 1 [[0]]).toOption = (kfcv [0, 1, 2, 3, 4] 3 1 [[0]]).toOption ∧ (kfcv [0, 1, 2, 3, 4] 3 1 [[0]]).toOption.isSome = true := by decide +kernel

-- C306: stamps two apart from 0 to 40 and three folds satisfy the density condition with d = 2: windows of 20 and (2 + 2) * 2 ≤ 20
example : (kfcv ((List.range 21).map (fun (k : Nat) => 2 * (k : Int))) 3 1 [[0]]).toOption.isSome = true ∧ ((2 : Int) + 2) * ((3 : Int) - 1) ≤ (40 - 0) / ((3 : Int) - 1) := by decide +kernel

example : ∀ s : Int, 0 ≤ s → s + 2 ≤ 40 → ∃ (j : Nat) (t : Int), ((List.range 21).map (fun (k : Nat) => 2 * (k : Int)))[j]? = some t ∧ s ≤ t ∧ t ≤ s + 2 := by
  intro s h0 h1
  refine ⟨((s + 1) / 2).toNat, 2 * ((s + 1) / 2), ?_, by omega, by omega⟩
  rw [List.getElem?_map, List.getElem?_range (by omega)]
  simp only [Option.map_some, Option.some.injEq]
  omega

end PyF.Kfcv
