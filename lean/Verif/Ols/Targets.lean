import Verif.Ols.Ridge

/-! Forecasts of a target and the other targets of the linear forecaster. -/

namespace PyF.Ols
open Spec

variable {d m m' : ℕ}

/-- The same rows with the targets chosen by `σ`. -/
def onlyTargets (σ : Fin m' → Fin m) (r : Row d m) : Row d m' := (r.1, fun j => r.2 (σ j))

theorem normal_only {α : ℝ} {rows : List (Row d m)} {c : Coef d m} (σ : Fin m' → Fin m) (h : Normal α rows c) :
    Normal α (rows.map (onlyTargets σ)) (⟨fun j => c.w (σ j), fun j => c.b (σ j)⟩ : Coef d m') := by
  intro j
  exact ⟨by rw [List.map_map]; exact (h (σ j)).1, fun k => by rw [List.map_map]; exact (h (σ j)).2 k⟩

/-- **C268.** Kind `linear`: the forecasts of a target do not depend on which other targets the model has. -/
theorem C268_linear (S : Solver d m) (S' : Solver d m') (vr : Option ℝ) (rows : List (Row d m)) (σ : Fin m' → Fin m) (hI : Indep (trainRows vr rows))
    (hS : IsBest 0 (trainRows vr rows) (S 0 (trainRows vr rows)))
    (hS' : IsBest 0 (trainRows vr (rows.map (onlyTargets σ))) (S' 0 (trainRows vr (rows.map (onlyTargets σ)))))
    (f : Coef d m) (f' : Coef d m') (h : fit S "linear" vr rows = .ok f) (h' : fit S' "linear" vr (rows.map (onlyTargets σ)) = .ok f')
    (x : Fin d → ℝ) (j : Fin m') : pred f' x j = pred f x (σ j) := by
  rw [fit_linear] at h h'
  obtain rfl := Except.ok.inj h
  obtain rfl := Except.ok.inj h'
  rw [trainRows_map] at hS' ⊢
  have hI' : Indep ((trainRows vr rows).map (onlyTargets σ)) := by
    intro w b hw
    exact hI w b fun r hr => hw _ (List.mem_map_of_mem hr)
  rw [normal_unique_indep hI' (normal_only σ (normal_of_best hS)) (normal_of_best hS')]
  rfl

theorem uncorr_only {rows : List (Row d m)} (σ : Fin m' → Fin m) (j : Fin m') : Uncorrelated (rows.map (onlyTargets σ)) j ↔ Uncorrelated rows (σ j) := by
  unfold Uncorrelated
  simp only [List.map_map, List.length_map]
  rfl

/-- Penalised models of a target with different penalties differ unless the target is uncorrelated with all features. -/
theorem penalties_differ {α α' : ℝ} (hα : 0 < α) (hα' : 0 < α') {rows : List (Row d m)} (hne : rows ≠ []) {c c' : Coef d m} (h : Normal α rows c)
    (h' : Normal α' rows c') (hd : α' ≠ α) (j : Fin m) : (∀ x : Fin d → ℝ, pred c' x j = pred c x j) ↔ Uncorrelated rows j := by
  have h1 : rows.map (rescale (1 : ℝ)) = rows := by
    have : ∀ r : Row d m, rescale (1 : ℝ) r = r := fun r => by simp [rescale]
    exact (List.map_congr_left fun r _ => this r).trans (List.map_id _)
  have := ridge_rescale (s := 1) hα hα' one_ne_zero hne h (by rw [h1]; exact h') (by simpa using hd) j
  simpa using this

/-- **C268.** Kind `ridge`: the other targets have a say in the common penalty. The forecasts of a target are the same with other companions iff the penalty is, or the
target is uncorrelated with all features. -/
theorem C268_ridge (S : Solver d m) (S' : Solver d m') (vr : Option ℝ) (rows : List (Row d m)) (σ : Fin m' → Fin m) (hne : trainRows vr rows ≠ [])
    (hS : ∀ α ∈ grid, IsBest α (trainRows vr rows) (S α (trainRows vr rows)))
    (hS' : ∀ α ∈ grid, IsBest α (trainRows vr (rows.map (onlyTargets σ))) (S' α (trainRows vr (rows.map (onlyTargets σ)))))
    (f : Coef d m) (f' : Coef d m') (h : fit S "ridge" vr rows = .ok f) (h' : fit S' "ridge" vr (rows.map (onlyTargets σ)) = .ok f') (j : Fin m') :
    (∀ x : Fin d → ℝ, pred f' x j = pred f x (σ j))
      ↔ penalty S' "ridge" (trainRows vr (rows.map (onlyTargets σ))) = penalty S "ridge" (trainRows vr rows) ∨ Uncorrelated (trainRows vr rows) (σ j) := by
  rw [fit_ridge] at h h'
  obtain rfl := Except.ok.inj h
  obtain rfl := Except.ok.inj h'
  rw [trainRows_map] at hS' ⊢
  have m1 := ridgeAlpha_mem S (trainRows vr rows)
  have m2 := ridgeAlpha_mem S' ((trainRows vr rows).map (onlyTargets σ))
  have hne' : (trainRows vr rows).map (onlyTargets σ) ≠ [] := by simpa using hne
  have N1 := normal_only σ (normal_of_best (hS _ m1))
  have N2 := normal_of_best (hS' _ m2)
  have hpen : penalty S' "ridge" ((trainRows vr rows).map (onlyTargets σ)) = penalty S "ridge" (trainRows vr rows)
      ↔ ridgeAlpha S' ((trainRows vr rows).map (onlyTargets σ)) = ridgeAlpha S (trainRows vr rows) := by simp [penalty]
  rw [hpen]
  by_cases heq : ridgeAlpha S' ((trainRows vr rows).map (onlyTargets σ)) = ridgeAlpha S (trainRows vr rows)
  · refine ⟨fun _ => Or.inl heq, fun _ x => ?_⟩
    rw [heq] at N2 ⊢
    rw [normal_unique_pos (grid_pos m1) hne' N1 N2]
    rfl
  · have := penalties_differ (grid_pos m1) (grid_pos m2) hne' N1 N2 heq j
    rw [uncorr_only] at this
    constructor
    · exact fun hx => Or.inr (this.1 hx)
    · rintro (h0 | h0)
      · exact absurd h0 heq
      · exact this.2 h0

end PyF.Ols
