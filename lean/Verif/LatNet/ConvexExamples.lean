import Verif.LatNet.Convex
import Verif.LatNet.Examples
import Verif.ICNN.Examples

/-! Examples for C325. -/

namespace PyF.LatNet

open PyF PyF.ICNN

/-- The latent network of the ICNN examples, with negative weights before the projection, read back from the projected dictionary. -/
theorem exLatent_read : ∃ t' l, reproject false false exLatent = .ok t' ∧ ReadFrom t' 1 1 1 l ∧ l.pred.length = 1 :=
  ⟨_, ⟨_, _, _⟩, rfl, ⟨⟨_, rfl, rfl⟩, ⟨_, rfl, rfl⟩, _, rfl, rfl⟩, rfl⟩

/-- C325: the forecast at the middle of two embeddings is at most the average of the two forecasts. -/
example : ∃ (l : Layers) (z z' zs : ℕ → ℝ), l.pred.length = 1 ∧
    apply (cfgPred exArgs none) l.pred 1 (fun _ => 1) (fun i => i) = .ok z ∧ apply (cfgPred exArgs none) l.pred 1 (fun _ => 1) (fun _ => 5) = .ok z' ∧
    apply (cfgPred exArgs none) l.pred 1 (fun _ => 1) (seg (1 / 2) (fun i => i) (fun _ => 5)) = .ok zs ∧ zs 0 ≤ (1 - 1 / 2) * z 0 + 1 / 2 * z' 0 := by
  obtain ⟨t', l, h, hr, hl⟩ := exLatent_read
  obtain ⟨-, ⟨z, z', zs, h1, h2, h3, hc⟩, -⟩ := C325_convex false false exLatent t' h 1 1 1 l hr exArgs 1 (fun _ => 1) (fun i => i) (fun _ => 5) (1 / 2) (by norm_num) (by norm_num)
  exact ⟨l, z, z', zs, hl, h1, h2, h3, hc 0⟩

/-- C325: the sum of the first two forecasts has no local minima that are not global, among the embeddings a bounded distance away. -/
example : ∃ (l : Layers), l.pred.length = 1 ∧ ∀ J : (ℕ → ℝ) → ℝ,
    (∀ e z, apply (cfgPred exArgs none) l.pred 1 (fun _ => 1) e = .ok z → J e = ∑ j ∈ Finset.range 2, 1 * z j) →
    (∀ e', (∀ i, |e' i - 3| ≤ 1 / 10) → J (fun _ => 3) ≤ J e') → J (fun _ => 3) ≤ J (fun _ => 100) := by
  obtain ⟨t', l, h, hr, hl⟩ := exLatent_read
  refine ⟨l, hl, fun J hJ hloc => ?_⟩
  exact C325_no_local_minima false false exLatent t' h 1 1 1 l hr exArgs 1 (fun _ => 1) (fun _ => 1) (fun _ => zero_le_one) 2 J hJ (fun _ => 3) (1 / 10) (by norm_num) hloc
    (fun _ => 100) 97 (fun i => by norm_num)

/-- C325: bounded to (0, 1), the forecast at the middle of two embeddings is at most the larger of the two forecasts. -/
example : ∃ (l : Layers) (z z' zs : ℕ → ℝ), l.pred.length = 1 ∧
    apply (cfgPred exArgs (some (0, 1))) l.pred 1 (fun _ => 1) (fun i => i) = .ok z ∧ apply (cfgPred exArgs (some (0, 1))) l.pred 1 (fun _ => 1) (fun _ => 5) = .ok z' ∧
    apply (cfgPred exArgs (some (0, 1))) l.pred 1 (fun _ => 1) (seg (1 / 2) (fun i => i) (fun _ => 5)) = .ok zs ∧ zs 0 ≤ max (z 0) (z' 0) := by
  obtain ⟨t', l, h, hr, hl⟩ : ∃ t' l, reproject false false exLatent = .ok t' ∧ ReadFrom t' 1 1 1 l ∧ l.enc ≠ [] ∧ l.dec ≠ [] ∧ l.pred.length = 1 :=
    ⟨_, ⟨_, _, _⟩, rfl, ⟨⟨_, rfl, rfl⟩, ⟨_, rfl, rfl⟩, _, rfl, rfl⟩, List.cons_ne_nil _ _, List.cons_ne_nil _ _, rfl⟩
  obtain ⟨-, ⟨z, z', zs, h1, h2, h3, hc⟩, -⟩ := C325_bounds false false exLatent t' h 1 1 1 l hr hl.1 hl.2.1 (fun hn => by have := hl.2.2; rw [hn] at this; simp at this)
    exArgs 0 1 (by norm_num) 1 (fun _ => 1) (fun i => i) (fun _ => 5) (1 / 2) (by norm_num) (by norm_num)
  exact ⟨l, z, z', zs, hl.2.2, h1, h2, h3, hc 0⟩

end PyF.LatNet
