import Verif.ICNN.InitMean
import Verif.ICNN.Examples

/-! Concrete random numbers meeting the hypotheses of C297 and C298. -/

namespace PyF.ICNN
open PyF MeasureTheory ProbabilityTheory

/-- Draws of both signs. -/
noncomputable def exDraws : InitDraws := ⟨fun _ _ i j => i - j, fun _ _ _ _ => 1 / 2, fun l _ i j => (j : ℝ) - i - l⟩

/-- A new network of two layers is convex in the controls. -/
example : ∃ (t : Tree) (lays : List LayerP) (o o' os : ℕ → ℝ), newNet exDraws true "normal" 3 2 0 2 = .ok t ∧ readNet t 0 2 = some lays ∧ lays.length = 2 ∧
    apply (cfgPICNN false 2 3 3 none) lays 1 (fun _ => 1) (fun i => i) = .ok o ∧
    apply (cfgPICNN false 2 3 3 none) lays 1 (fun _ => 1) (fun _ => 5) = .ok o' ∧
    apply (cfgPICNN false 2 3 3 none) lays 1 (fun _ => 1) (seg (1 / 3) (fun i => i) (fun _ => 5)) = .ok os ∧
    os 0 ≤ (1 - 1 / 3) * o 0 + 1 / 3 * o' 0 := by
  have hn : ∃ t lays, newNet exDraws true "normal" 3 2 0 2 = .ok t ∧ readNet t 0 2 = some lays ∧ lays.length = 2 := by
    refine ⟨_, _, rfl, rfl, rfl⟩
  obtain ⟨t, lays, h1, h2, h3⟩ := hn
  obtain ⟨o, ho⟩ := (C115_point_evaluates false 2 3 3 none lays 1 (fun _ => 1) (fun i => i)).1
  obtain ⟨o', ho'⟩ := (C115_point_evaluates false 2 3 3 none lays 1 (fun _ => 1) (fun _ => 5)).1
  obtain ⟨os, hos⟩ := (C115_point_evaluates false 2 3 3 none lays 1 (fun _ => 1) (seg (1 / 3) (fun i => i) (fun _ => 5))).1
  exact ⟨t, lays, o, o', os, h1, h2, h3, ho, ho', hos,
    C297_convex exDraws true "normal" 3 2 2 t h1 lays h2 _ ⟨false, 2, 3, 3, Or.inl rfl⟩ 1 _ _ _ _ (by norm_num) (by norm_num) _ _ _ ho ho' hos 0⟩

/-- An unknown type raises; the recursively stable projection changes this network. -/
example : newNet exDraws false "zeros" 3 2 0 2 = .error .notImplementedError := rfl

example : ∃ t, newNet exDraws true "uniform" 3 2 0 2 = .ok t ∧ reproject true false t ≠ .ok t :=
  C297_not_stable exDraws "uniform" (Or.inr rfl) 3 2 1 1 0 (by norm_num [exDraws])

/-- Ideal random numbers exist; the weights of a unit with 100 inputs in a layer with 4 outputs sum to 2.5 on average with uniform numbers. -/
example : ∃ (P : Measure (ℝ × ℝ)) (normal unif : ℝ × ℝ → ℕ → ℕ → ℝ), IsProbabilityMeasure P ∧ IdealInit P normal unif ∧
    ∃ k : ℝ × ℝ → ℕ → ℕ → ℝ, (∀ ω, positiveLecun 4 "uniform" (normal ω) (unif ω) = .ok (k ω)) ∧ ∫ ω, ∑ i ∈ Finset.range 100, k ω i 0 ∂P = 5 / 2 := by
  have : IsProbabilityMeasure (volume.restrict (Set.Icc (0 : ℝ) 1)) := ⟨by simp⟩
  have hI : IdealInit ((gaussianReal 0 1).prod (volume.restrict (Set.Icc (0 : ℝ) 1))) (fun ω _ _ => ω.1) (fun ω _ _ => ω.2) := by
    refine ⟨fun _ _ => measurable_fst.aemeasurable, fun _ _ => ?_, fun _ _ => measurable_snd.aemeasurable, fun _ _ => ?_⟩
    · exact measurePreserving_fst.map_eq
    · exact measurePreserving_snd.map_eq
  refine ⟨_, _, _, inferInstance, hI, ?_⟩
  obtain ⟨k, h1, h2⟩ := (C298_sum_of_weights _ _ _ hI 4 100 0).2
  refine ⟨k, h1, ?_⟩
  rw [h2, show Real.sqrt ((4 : ℕ) : ℝ) = 2 by rw [show ((4 : ℕ) : ℝ) = 2 ^ 2 by norm_num]; exact Real.sqrt_sq (by norm_num)]
  norm_num

end PyF.ICNN
