import Verif.ICNN.Quasi

/-!
Concrete networks meeting the hypotheses of the theorems.
-/

namespace PyF.ICNN

open PyF

/-- The sub-dictionary of a layer with given `wz`, `wy` weights. -/
def exLayer (wz wy : ℝ) : LayerPars :=
  [(sUd, cst 1 0), (sWuz, cst 1 0), (sWy, cst wy 0), (sWyu, cst 0 1), (sWz, cst wz 0), (sWzu, cst 0 1)]

/-- A network of two layers with some negative weights, and an unrelated feed-forward part. -/
def exTree : Tree :=
  [("FeedForwardModule_0".toList, .layer [("Dense_0".toList, cst (-1) (-1))]), ("PICNNLayer_0".toList, .layer (exLayer (-2) 3)), ("PICNNLayer_1".toList, .layer (exLayer 1 (-3)))]

/-- A latent network: encoder, monotone decoder, predictor. -/
def exLatent : Tree :=
  [("PICNNLayer_decoder_monotone".toList, .sub [("PICNNLayer_0".toList, exLayer (-1) (-1))]),
   ("PICNNLayer_encoder".toList, .sub [("PICNNLayer_0".toList, exLayer (-1) (-1))]),
   ("PICNNLayer_picnn".toList, .sub [("PICNNLayer_0".toList, exLayer (-1) (-1))])]

theorem exTree_projected : ∃ t' lays, reproject false false exTree = .ok t' ∧ readNet t' 0 2 = some lays ∧ lays.length = 2 := ⟨_, _, rfl, rfl, rfl⟩

theorem exTree_projected_monotone : ∃ t' lays, reproject false true exTree = .ok t' ∧ readNet t' 0 2 = some lays ∧ lays.length = 2 := ⟨_, _, rfl, rfl, rfl⟩

theorem exLatent_projected : ∃ t' ls lays, reproject false false exLatent = .ok t' ∧ t'.lookup "PICNNLayer_decoder_monotone".toList = some (.sub ls) ∧ readSubNet ls 0 1 = some lays :=
  ⟨_, _, _, rfl, rfl, rfl⟩

/-- The projection clamps `wz`, keeps `wy` and the feed-forward part. -/
example : ∃ t', reproject false false exTree = .ok t' ∧
    (∃ d, get t' (.two "PICNNLayer_0".toList sWz) = some d ∧ d.kernel 0 0 = 0) ∧
    (∃ d, get t' (.two "PICNNLayer_1".toList sWy) = some d ∧ d.kernel 0 0 = -3) ∧
    (∃ d, get t' (.two "FeedForwardModule_0".toList "Dense_0".toList) = some d ∧ d.kernel 0 0 = -1) := by
  refine ⟨_, rfl, ⟨_, rfl, ?_⟩, ⟨_, rfl, rfl⟩, ⟨_, rfl, rfl⟩⟩
  simp [clampD, cst]

/-- In the latent network only the decoder gets its `wy` weights clamped. -/
example : ∃ t', reproject false false exLatent = .ok t' ∧
    (∃ d, get t' (.three "PICNNLayer_decoder_monotone".toList "PICNNLayer_0".toList sWy) = some d ∧ d.kernel 0 0 = 0) ∧
    (∃ d, get t' (.three "PICNNLayer_encoder".toList "PICNNLayer_0".toList sWy) = some d ∧ d.kernel 0 0 = -1) := by
  refine ⟨_, rfl, ⟨_, rfl, ?_⟩, ⟨_, rfl, rfl⟩⟩
  show max (0 : ℝ) (-1) = 0
  norm_num

/-- The recursively stable projection needs `wy`; a layer without it raises. -/
example : reproject true false [("PICNNLayer_0".toList, .layer [(sWz, cst 1 0)])] = .error .keyError := rfl

/-- C70 applies to a network of two layers. -/
example : ∃ (lays : List LayerP) (o o' os : ℕ → ℝ), lays.length = 2 ∧
    apply (cfgPICNN false 2 3 1 none) lays 1 (fun _ => 1) (fun i => i) = .ok o ∧
    apply (cfgPICNN false 2 3 1 none) lays 1 (fun _ => 1) (fun _ => 5) = .ok o' ∧
    apply (cfgPICNN false 2 3 1 none) lays 1 (fun _ => 1) (seg (1 / 3) (fun i => i) (fun _ => 5)) = .ok os ∧
    os 0 ≤ (1 - 1 / 3) * o 0 + 1 / 3 * o' 0 := by
  obtain ⟨t', lays, h1, h2, h3⟩ := exTree_projected
  obtain ⟨o, ho⟩ := (C115_point_evaluates false 2 3 1 none lays 1 (fun _ => 1) (fun i => i)).1
  obtain ⟨o', ho'⟩ := (C115_point_evaluates false 2 3 1 none lays 1 (fun _ => 1) (fun _ => 5)).1
  obtain ⟨os, hos⟩ := (C115_point_evaluates false 2 3 1 none lays 1 (fun _ => 1) (seg (1 / 3) (fun i => i) (fun _ => 5))).1
  exact ⟨lays, o, o', os, h3, ho, ho', hos,
    C70_convex _ _ _ _ h1 2 lays h2 _ ⟨false, 2, 3, 1, Or.inl rfl⟩ 1 _ _ _ _ (by norm_num) (by norm_num) o o' os ho ho' hos 0⟩

/-- The values of a small network with two controls: the first layer gives `max (y0 + y1 + 2) 0`, the second adds its own terms. -/
example : ∃ o, apply (cfgPICNN false 2 1 1 none) [⟨cst 0 1, cst 0 1, cst 1 0, cst 1 0, cst 0 1, cst 0 0⟩, ⟨cst 0 1, cst 0 2, cst 3 0, cst 1 0, cst 0 0, cst 0 0⟩] 0
    (fun _ => 0) (fun i => i) = .ok o ∧ o 0 = 11 := by
  refine ⟨_, by unfold apply; exact if_pos (by decide), ?_⟩
  simp [forward, pre, denseNoBias, dense, cst, cfgPICNN, hiddenY, bdim, bidx, yDim, bound, augY, relu, Finset.sum_range_succ]
  norm_num

/-- With augmentation the mirrored controls come after the controls. -/
example : (List.range 4).map (augY (cfgPICNN true 2 1 1 none) (fun i => (i : ℝ) + 1)) = [1, 2, -1, -2] := by
  simp [augY, cfgPICNN, List.range_succ]
  norm_num

/-- Output bounds. -/
example : bound (some (1, 3)) 0 = 2 := by
  simp [bound]; norm_num

/-- C115: three controls with augmentation cannot be evaluated by the recursively stable class. -/
example (lays : List LayerP) (h : lays ≠ []) (x y : ℕ → ℝ) : ¬ ∃ o, apply (cfgRecStable true 3 5 1 none) lays 2 x y = .ok o := by
  rw [C115_recstable_augment 3 5 1 none lays h]; omega

/-- C115: two outputs and a latent width of three cannot be evaluated with `probabilistic=True`. -/
example (lays sigs : List LayerP) (h : sigs ≠ []) (x y : ℕ → ℝ) : ¬ ∃ o, applyProb (cfgPICNN false 3 5 3 none) 2 2 lays sigs 2 x y = .ok o := by
  rw [C115_probabilistic false 3 5 3 2 2 none lays sigs h]; omega

end PyF.ICNN
