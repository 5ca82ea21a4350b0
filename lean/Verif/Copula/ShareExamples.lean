import Verif.Copula.Share
import Verif.Copula.Examples
import Mathlib.Probability.Independence.InfinitePi

/-! Independent scenarios: one normal number per scenario. -/

namespace PyF.Copula.Ex
open PyF PyF.ScenGen PyF.Recon MeasureTheory ProbabilityTheory Matrix

noncomputable abbrev many : Measure (ℕ → ℝ) := Measure.infinitePi (fun _ : ℕ => gaussianReal 0 1)

noncomputable def rvsMany : (ℕ → ℝ) → Nat → Matrix (Fin 2) (Fin 2) ℝ → Nat → Nat → Nat → Nat → Nat → ℝ :=
  fun ω c cov m n i k s => rvs (ω k) c cov m n i k s

theorem rvs_measurable (c : ℕ) (cov : Matrix (Fin 2) (Fin 2) ℝ) (m n i k s : ℕ) : Measurable (fun x => rvs x c cov m n i k s) := by
  unfold rvs
  split_ifs <;> fun_prop

theorem normalsMany : Normals many rvsMany where
  meas c cov m n i k s := ((rvs_measurable c cov m n i k s).comp (measurable_pi_apply k)).aemeasurable
  law c cov m n i k s h := by
    have h1 : (fun ω => rvsMany ω c cov m n i k s) = (fun x => rvs x c cov m n i k s) ∘ (fun ω : ℕ → ℝ => ω k) := rfl
    rw [h1, ← Measure.map_map (rvs_measurable c cov m n i k s) (measurable_pi_apply k), (measurePreserving_eval_infinitePi (fun _ : ℕ => gaussianReal 0 1) k).map_eq]
    exact normals.law c cov m n i k s h

theorem indepMany : IndepScenarios many rvsMany := by
  intro c cov m n i s k k' hne
  have h := iIndepFun_infinitePi (P := fun _ : ℕ => gaussianReal 0 1) (X := fun k x => rvs x c cov m n i k s) (fun k => rvs_measurable c cov m n i k s)
  exact h.indepFun hne

/-- Of ten independent scenarios the share below the largest quantile is within 1/40 of its level in mean square. -/
example : ∫ ω, ((countBelow (fun k => below levels [[[1, 2, 3], [4, 5, 6]]] false none (fun h => if h = 5 then some 1 else none) rvsMany (fun _ _ _ => 0) (fun _ _ _ _ => 0) 10 [5] 0 (0 : Fin 2) k 3) 10 ω : ℝ) / (10 : ℕ) -
    Phi (1 / Real.sqrt ((1 : Matrix (Fin 2) (Fin 2) ℝ) 0 0))) ^ 2 ∂many ≤ 1 / (4 * (10 : ℕ)) :=
  C295_share many _ _ _ _ _ rvsMany normalsMany indepMany _ _ _ _ _ _ 1 2 1 3 (by norm_num) (fun _ hk => { situation 1 PosDef.one with scenario := hk })

end PyF.Copula.Ex
