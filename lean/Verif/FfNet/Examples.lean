import Verif.FfNet.Series
import Mathlib.Tactic.NormNum

/-! Examples for C286–C288. -/

namespace PyF.FfNet
open PyF PyF.LstmNet

/-- Three layers, four hidden units, two steps. -/
def cfg : Config := { layers := .num 3, nOut := some 2, nNeurons := 4, split := false, selector := none, skip := false }

example : Sized cfg [4] 4 2 := rfl

example : Sized { cfg with layers := .sizes [10, 5, 3] } [10] 5 3 := rfl

/-- Weights one, norms untrained (scale one, bias zero). -/
noncomputable def par : Params :=
  { layer := fun _ => ⟨fun _ _ => 1, fun _ => 0⟩, norm := fun _ => ⟨fun _ => 1, fun _ => 0⟩, subIn := fun _ => ⟨fun _ _ => 1, fun _ => 0⟩,
    subOut := fun _ => ⟨fun _ _ => 1, fun _ => 0⟩, skip := ⟨fun _ _ => 3, fun _ => 7⟩ }

/-- Four hidden units give a band of half-width eight: no row of features is answered by more. -/
example (row : List ℝ) : ∃ y, forward cfg par row = .ok y ∧ ∀ (k : ℕ) (v : ℝ), y[k]? = some v → |v| ≤ 8 := by
  obtain ⟨y, h1, -, h2⟩ := C286_band cfg par [4] 4 2 rfl rfl rfl rfl row
  refine ⟨y, h1, fun k v hv => ?_⟩
  have h := h2 k v hv
  have hs : Real.sqrt ((4 : ℕ) : ℝ) = 2 := by
    rw [show ((4 : ℕ) : ℝ) = 2 ^ 2 by norm_num]
    exact Real.sqrt_sq (by norm_num)
  simp only [par, hs] at h
  norm_num at h
  exact h

/-- A selector of the first two features. -/
example : ∃ M : ℝ, ∀ row : List ℝ, ∃ y v, forward { cfg with selector := some [0, 1] } par row = .ok y ∧ y.length = 2 ∧ y[1]? = some v ∧
    |v - row.getD 1 0| ≤ M := C287_selector { cfg with selector := some [0, 1] } par [4] 4 2 rfl [0, 1] rfl rfl 1 1 rfl

/-- A skip connection with weights three and bias seven. -/
example : ∃ M : ℝ, ∀ row : List ℝ, ∃ y v, forward { cfg with skip := true } par row = .ok y ∧ y.length = 2 ∧ y[0]? = some v ∧
    |v - (7 + ∑ j ∈ Finset.range row.length, 3 * row.getD j 0)| ≤ M := C287_skip { cfg with skip := true } par [4] 4 2 rfl rfl rfl rfl 0 (by norm_num)

/-- A single layer adds up the features: no band. -/
example (v : ℝ) : forward { cfg with layers := .num 1 } par [v, 1] = .ok [v + 1, v + 1] := by
  rw [C288_single_layer { cfg with layers := .num 1 } par 2 rfl rfl rfl rfl]
  simp [par, List.range_succ, Finset.sum_range_succ]

/-- A second layer without weights. -/
example (r r' : List ℝ) : forward cfg { par with layer := fun i => if i = 1 then ⟨fun _ _ => 0, fun _ => 5⟩ else ⟨fun _ _ => 1, fun _ => 0⟩ } r
    = forward cfg { par with layer := fun i => if i = 1 then ⟨fun _ _ => 0, fun _ => 5⟩ else ⟨fun _ _ => 1, fun _ => 0⟩ } r' :=
  C288_series cfg _ rfl rfl [4, 4, 2] rfl 1 (by decide) (fun _ _ => rfl) r r'

/-- Negative weights and positive features. -/
example : forward cfg { par with layer := fun _ => ⟨fun _ _ => -1, fun _ => 0⟩ } [1, 2]
    = forward cfg { par with layer := fun _ => ⟨fun _ _ => -1, fun _ => 0⟩ } [30] :=
  C288_dead_units cfg _ rfl rfl [4, 4, 2] rfl (by decide) (fun _ _ => by norm_num) (fun _ => le_rfl) _ _ (by simp) (by simp)

/-- All weights of the first layer equal. -/
example (r r' : List ℝ) : forward cfg { par with layer := fun i => if i = 0 then ⟨fun _ _ => 3, fun _ => 5⟩ else ⟨fun k j => k + j, fun _ => 0⟩ } r
    = forward cfg { par with layer := fun i => if i = 0 then ⟨fun _ _ => 3, fun _ => 5⟩ else ⟨fun k j => k + j, fun _ => 0⟩ } r' :=
  C288_equal_units cfg _ rfl rfl [4, 4, 2] rfl (by decide) 0 (by decide) (fun _ _ _ => rfl) (fun _ _ => rfl) r r'

end PyF.FfNet
