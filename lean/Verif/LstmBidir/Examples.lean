import Verif.LstmBidir.Exog
import Mathlib.Tactic.NormNum

/-! Examples for C281. -/

namespace PyF.LstmBidir
open PyF PyF.LstmNet

/-- Two half open cells, weights one for the first unit of each direction, exogenous part passed through. -/
noncomputable def net : Params :=
  { fwd := halfCell, bwd := halfCell, d1 := ⟨fun k j => if k = j then 1 else 0, fun _ => 0⟩,
    d2 := ⟨fun k j => if k = j then 1 else 0, fun _ => 0⟩, headSeq := ⟨fun _ j => if j = 0 ∨ j = 64 then 1 else 0, fun _ => 0⟩,
    headExog := ⟨fun _ j => if j = 0 then 1 else 0, fun _ => 0⟩ }

/-- The weights of the history add up to two: with scale 3 a history changes the forecast by at most 12. -/
example (s s' e : List ℝ) : |forecast net 10 3 s e 0 - forecast net 10 3 s' e 0| ≤ 12 := by
  have h := C281_history_bounded net 10 3 s s' e 0
  have hs : ∑ i ∈ Finset.range 128, |net.headSeq.W 0 i| = 2 := by
    simp [net, Finset.sum_range_succ]
    norm_num
  rw [hs] at h
  norm_num at h
  exact h

/-- The network is symmetric in the sense of `C281_reversal`. -/
example : Mirror net := by
  refine ⟨rfl, fun k i hi => ?_⟩
  by_cases h : i = 0
  · subst h; simp [net]
  · have h1 : ¬ (i = 0 ∨ i = 64) := by omega
    have h2 : ¬ (64 + i = 0 ∨ 64 + i = 64) := by omega
    simp only [net, if_neg h1, if_neg h2]

/-- The exogenous part does enter: a feature of 5 adds 5 (times the scale) to the forecast. -/
example (s : List ℝ) : forecast net 0 2 s [5] 0 - forecast net 0 2 s [0] 0 = 10 := by
  have e : ∀ v : ℝ, 0 ≤ v → affine net.headExog 32 (exogOut net [v]) 0 = v := by
    intro v hv
    simp [affine, exogOut, reluLayer, net, hv]
  unfold forecast output
  rw [e 5 (by norm_num), e 0 le_rfl]
  ring

/-- One exogenous feature changed from `v` to `w`: the forecast moves by at most twice the change. -/
example (s : List ℝ) (v w : ℝ) : |forecast net 0 2 s [v] 0 - forecast net 0 2 s [w] 0| ≤ 2 * |v - w| := by
  have h := C281_exogenous_sensitivity net 0 2 s [v] [w] rfl 0
  simpa [net, Finset.sum_range_succ] using h

/-- No exogenous feature lowers a forecast of this network below that of the history alone. -/
example (s : List ℝ) (v : ℝ) : (affine net.headSeq 128 (bidir net s) 0 + 0) * 2 + 7 ≤ forecast net 7 2 s [v] 0 :=
  (C281_exogenous_one_sided net 7 2 (by norm_num) s [v] 0).1 (fun i _ => by
    show (0 : ℝ) ≤ if i = 0 then 1 else 0
    split <;> norm_num)

end PyF.LstmBidir
