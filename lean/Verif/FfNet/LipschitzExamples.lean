import Verif.FfNet.Lipschitz
import Mathlib.Tactic.NormNum

namespace PyF.FfNet
open PyF PyF.LstmNet

/-- One feature, one hidden layer of two neurons, one output; all weights 0 or 1: the first neuron is the feature, the second is zero, the output is the first normalised neuron. -/
noncomputable def ampPars : Params :=
  { layer := fun _ => { W := fun k j => if k = 0 ∧ j = 0 then 1 else 0, b := fun _ => 0 }
    norm := fun _ => { g := fun _ => 1, b := fun _ => 0 }
    subIn := fun _ => { W := fun _ _ => 0, b := fun _ => 0 }
    subOut := fun _ => { W := fun _ _ => 0, b := fun _ => 0 }
    skip := { W := fun _ _ => 0, b := fun _ => 0 } }

def ampCfg : Config := { layers := .sizes [2, 1], nOut := some 1, nNeurons := 2, split := false, selector := none, skip := false }

theorem amp_forward (v : ℝ) (hv : 0 ≤ v) : forward ampCfg ampPars [v] = .ok [v / 2 / Real.sqrt ((v / 2) ^ 2 + 1 / 1000000)] := by
  have e : ∀ k, relu (dense (ampPars.layer 0) 1 (fun j => ([v] : List ℝ).getD j 0) k) = if k = 0 then v else 0 := by
    intro k
    by_cases hk : k = 0 <;> simp [dense, ampPars, relu, hk, hv]
  have hm : mean 2 (fun k => if k = 0 then v else 0) = v / 2 := by simp [mean, Finset.sum_range_succ]
  have hvar : var 2 (fun k => if k = 0 then v else 0) = (v / 2) ^ 2 := by
    unfold var
    rw [hm]
    simp [Finset.sum_range_succ]
    ring
  simp only [forward, sizes, ampCfg, List.getLast?, shortcut, lastLayer, hidden, List.dropLast]
  simp only [List.getLast, List.length_singleton, e]
  simp only [Bool.false_eq_true, if_false]
  congr 1
  simp [List.range_succ, dense, Finset.sum_range_succ, Norm.apply, hm, hvar, ampPars]
  ring

/-- C304 (amplification): the factor can be large although all weights are 0 or 1: a feature moving from 0 to 0.002 moves the forecast from 0 to more than 0.7. -/
theorem C304_amplified : forward ampCfg ampPars [0] = .ok [0] ∧ ∃ v : ℝ, forward ampCfg ampPars [1 / 500] = .ok [v] ∧ 7 / 10 < v := by
  refine ⟨?_, _, amp_forward (1 / 500) (by norm_num), ?_⟩
  · rw [amp_forward 0 le_rfl]
    simp
  · have h : Real.sqrt ((1 / 500 / 2 : ℝ) ^ 2 + 1 / 1000000) < 1 / 700 := by
      rw [Real.sqrt_lt' (by norm_num)]
      norm_num
    have hp : 0 < Real.sqrt ((1 / 500 / 2 : ℝ) ^ 2 + 1 / 1000000) := Real.sqrt_pos.2 (by norm_num)
    rw [lt_div_iff₀ hp]
    linarith

/-- The hypotheses of `C304_lipschitz` on the rows. -/
example : List.Forall₂ (fun p q : ℝ => |p - q| ≤ 1 / 500) [0] [1 / 500] := by
  refine List.Forall₂.cons ?_ List.Forall₂.nil
  norm_num [abs_le]

end PyF.FfNet
