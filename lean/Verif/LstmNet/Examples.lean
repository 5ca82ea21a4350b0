import Verif.LstmNet.Props
import Mathlib.Tactic.NormNum

/-! Examples for C278–C280. -/

namespace PyF.LstmNet
open PyF

/-- Three layers of eight units and two steps: sizes 8, 8, 2. -/
example : (layerSizes (.num 3) 8 2).toOption = some [8, 8, 2] := by decide +kernel

/-- A list of sizes is taken as given: `n_out = 2` is ignored. -/
example : (layerSizes (.sizes [8, 5]) 8 2).toOption = some [8, 5] ∧ outSize (.sizes [8, 5]) 2 = some 5 := by decide +kernel

/-- Hence the forecast of two columns raises. -/
example (cells : ℕ → Cell) (D : Dense) (mean scale : ℕ → ℝ) :
    predict (.sizes [8, 5]) 8 2 2 cells D mean scale [1, 2, 3] = .error .valueError :=
  ((C278_sizes 8 2 2 cells D mean scale [1, 2, 3] (by simp)).1 (.sizes [8, 5]) 5 rfl).2 (by decide)

/-- A network of one unit, weight 3, no bias, mean 10 and scale 2: all forecasts lie between 4 and 16. -/
example (row : List ℝ) (hrow : row ≠ []) : ∃ y, predict (.num 1) 1 1 1 (fun _ => halfCell) ⟨fun _ _ => 3, fun _ => 0⟩ (fun _ => 10)
    (fun _ => 2) row = .ok y ∧ ∀ v : ℝ, y[0]? = some v → 4 ≤ v ∧ v ≤ 16 := by
  obtain ⟨y, h1, h2⟩ := C279_band (.num 1) 1 1 1 rfl (fun _ => halfCell) ⟨fun _ _ => 3, fun _ => 0⟩ (fun _ => 10) (fun _ => 2) row hrow
  refine ⟨y, h1, fun v hv => ?_⟩
  have := abs_le.1 (h2 0 v hv)
  norm_num at this
  constructor <;> linarith [this.1, this.2]

/-- In C280 the rows [0, 1] and [1, 0] are told apart. -/
example : ∃ (cells : ℕ → Cell) (D : Dense), forward (.num 1) 4 1 cells D [0, 1] ≠ forward (.num 1) 4 1 cells D [1, 0] := by
  obtain ⟨c, D, h⟩ := C280_column_order
  exact ⟨c, D, fun e => absurd ((h 4 0 1).1 e) (by norm_num)⟩

/-- A second layer of zero gates hides the features from the third layer. -/
example (c c' : Cell) (D : Dense) : forward (.num 3) 8 2 (fun j => if j = 1 then ⟨zeroGate, zeroGate, zeroGate, zeroGate⟩ else
    if j = 0 then c else c') D [1, 2] = forward (.num 3) 8 2 (fun j => if j = 1 then ⟨zeroGate, zeroGate, zeroGate, zeroGate⟩ else
    if j = 0 then c else c') D [5, 7] :=
  C280_series (.num 3) 8 2 [8, 8, 2] rfl _ D 1 (by decide) (fun _ _ => ⟨rfl, rfl, rfl, rfl⟩) _ _ rfl

end PyF.LstmNet
