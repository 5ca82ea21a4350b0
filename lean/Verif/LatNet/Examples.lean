import Verif.LatNet.Props

/-! Concrete instances of the hypotheses of C252–C254. -/

namespace PyF.LatNet

open PyF PyF.ICNN

/-- A layer with constant weights. -/
noncomputable def exLayer : LayerP := ⟨⟨fun _ _ => 0, fun _ => 1⟩, ⟨fun _ _ => 0, fun _ => 1⟩, ⟨fun _ _ => 1, fun _ => 0⟩, ⟨fun _ _ => 1, fun _ => 0⟩, ⟨fun _ _ => 0, fun _ => 0⟩, ⟨fun _ _ => 0, fun _ => 0⟩⟩

/-- Five targets, ten embeddings, two controls, as in the defaults. -/
def exArgs : Args := ⟨none, 5, 10, 2, 100, false⟩

/-- C252: forecasts bounded to (0, 1): a control of 3 is missed by more than 2. -/
example : ∃ z e r, call exArgs (some (0, 1)) ⟨[exLayer, exLayer], [exLayer], [exLayer]⟩ 1 (fun _ => 0) (fun _ => 3) = .ok (z, e, r) ∧ (2 : ℝ) < |r 0 - 3| := by
  obtain ⟨z, e, r, h, -, -, -, hr⟩ := C252_confined exArgs 0 1 (by norm_num) ⟨[exLayer, exLayer], [exLayer], [exLayer]⟩ (by simp) (by simp) (by simp) 1 (fun _ => 0) (fun _ => 3)
  exact ⟨z, e, r, h, by have := (hr 0).2 (by norm_num); linarith⟩

/-- C252: the same without bounds, where the reconstruction is not confined: one layer of ones, ten embeddings of 8. -/
example : apply (cfgDec exArgs none) [exLayer] 1 (fun _ => 0) (fun _ => 8) = .ok (fun _ => 82) := by
  have h : shapesOk (cfgDec exArgs none) (cfgDec exArgs none).lat [exLayer].length (cfgDec exArgs none).lat = true := by decide
  unfold apply
  rw [if_pos h]
  congr 1
  funext j
  simp [forward, pre, denseNoBias, dense, cfgDec, exArgs, exLayer, bdim, bidx, yDim, bound, augY, relu, Args.embY, Args.latDec]
  norm_num

/-- C253: bounds (0, 1), three targets with a variance each. -/
example : ∃ o, applyProb (cfgPICNN false 2 5 3 (some (0, 1))) 3 3 [exLayer] [exLayer] 1 (fun _ => 0) (fun _ => 7) = .ok o ∧ Real.log 2 < o 4 := by
  obtain ⟨o, ho⟩ := (C115_probabilistic false 2 5 3 3 3 (some (0, 1)) [exLayer] [exLayer] (by simp) 1 (fun _ => 0) (fun _ => 7)).mpr (by omega)
  refine ⟨o, ho, ?_⟩
  have := (C253_variance (cfgPICNN false 2 5 3 (some (0, 1))) 0 1 rfl (by norm_num) 3 3 [exLayer] [exLayer] (by simp) 1 _ _ o ho 4 (by norm_num)).1
  rw [Real.exp_zero] at this
  norm_num at this ⊢
  linarith

/-- C254: the defaults work without `probabilistic` and bounds, and with neither of them. -/
example : (callWidth exArgs false none 3 3 3).toOption = some (5, 10, 2) ∧ (callWidth exArgs true none 3 3 3).toOption = none ∧
    (callWidth exArgs false (some 5) 3 3 3).toOption = none ∧ (callWidth { exArgs with nEmb := 5, nCtrl := 1 } false (some 5) 3 3 3).toOption = some (5, 5, 5) ∧
    (callWidth { exArgs with nEmb := 1 } true none 3 3 3).toOption = some (10, 2, 4) := by decide +kernel

end PyF.LatNet
