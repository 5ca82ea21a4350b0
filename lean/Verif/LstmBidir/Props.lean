import Verif.LstmBidir.Model
import Verif.LstmNet.Props

/-! C281: how history and exogenous features enter the forecasts of `LSTM_Forecaster`. -/

namespace PyF.LstmBidir
open PyF PyF.LstmNet

theorem lastHidden_lt (C : Cell) (seq : List ℝ) (k : ℕ) : |lastHidden C seq k| < 1 := by
  unfold lastHidden
  cases h : (C.scan 1 64 Carry.zero (seq.map (fun v => fun _ => v))).getLast? with
  | none => simp
  | some x => exact scan_lt _ _ _ _ _ x (List.mem_of_getLast? h) k

theorem bidir_lt (P : Params) (seq : List ℝ) (k : ℕ) : |bidir P seq k| < 1 := by
  unfold bidir
  split
  · exact lastHidden_lt _ _ _
  · exact lastHidden_lt _ _ _

/-- C281 (no interaction): replacing the exogenous features changes the forecast by the same amount whatever the history is; the
network cannot weigh one by the other. -/
theorem C281_additive (P : Params) (mean scale : ℝ) (s s' e e' : List ℝ) (k : ℕ) :
    forecast P mean scale s e k - forecast P mean scale s e' k
      = forecast P mean scale s' e k - forecast P mean scale s' e' k := by
  unfold forecast output
  ring

/-- C281 (history): changing the history, however much, moves the forecast of step `k` by at most twice the scale of the target
times the sum of the absolute weights of the head of the history. -/
theorem C281_history_bounded (P : Params) (mean scale : ℝ) (s s' e : List ℝ) (k : ℕ) :
    |forecast P mean scale s e k - forecast P mean scale s' e k|
      ≤ 2 * |scale| * ∑ i ∈ Finset.range 128, |P.headSeq.W k i| := by
  have e1 : forecast P mean scale s e k - forecast P mean scale s' e k
      = scale * ((∑ i ∈ Finset.range 128, P.headSeq.W k i * bidir P s i)
        - ∑ i ∈ Finset.range 128, P.headSeq.W k i * bidir P s' i) := by
    unfold forecast output affine
    ring
  rw [e1, abs_mul, mul_comm 2 |scale|, mul_assoc]
  refine mul_le_mul_of_nonneg_left ?_ (abs_nonneg _)
  have h1 := dense_band 128 (P.headSeq.W k) (bidir P s) (bidir_lt P s)
  have h2 := dense_band 128 (P.headSeq.W k) (bidir P s') (bidir_lt P s')
  have h3 := abs_sub (∑ i ∈ Finset.range 128, P.headSeq.W k i * bidir P s i) (∑ i ∈ Finset.range 128, P.headSeq.W k i * bidir P s' i)
  linarith

/-- C281 (no exogenous columns): without exogenous features all forecasts of a network lie in one band. -/
theorem C281_no_exogenous (P : Params) (mean scale : ℝ) (k : ℕ) : ∃ M : ℝ, ∀ s : List ℝ, |forecast P mean scale s [] k| ≤ M := by
  refine ⟨|forecast P mean scale [] [] k| + 2 * |scale| * ∑ i ∈ Finset.range 128, |P.headSeq.W k i|, fun s => ?_⟩
  have h1 := C281_history_bounded P mean scale s [] [] k
  have h2 := abs_add_le (forecast P mean scale s [] k - forecast P mean scale [] [] k) (forecast P mean scale [] [] k)
  rw [sub_add_cancel] at h2
  linarith

/-- Both directions have the same parameters and the head weighs them alike. -/
def Mirror (P : Params) : Prop := P.fwd = P.bwd ∧ ∀ k i, i < 64 → P.headSeq.W k i = P.headSeq.W k (64 + i)

/-- C281 (two directions): a network whose two directions are alike cannot tell a history from its reversal; so the two directions
read the history from the two ends. -/
theorem C281_reversal (P : Params) (h : Mirror P) (mean scale : ℝ) (s e : List ℝ) (k : ℕ) :
    forecast P mean scale s e k = forecast P mean scale s.reverse e k := by
  have key : ∀ s : List ℝ, ∑ i ∈ Finset.range 128, P.headSeq.W k i * bidir P s i
      = (∑ i ∈ Finset.range 64, P.headSeq.W k i * lastHidden P.bwd s i)
        + ∑ i ∈ Finset.range 64, P.headSeq.W k i * lastHidden P.bwd s.reverse i := by
    intro s
    rw [show (128 : ℕ) = 64 + 64 from rfl, Finset.sum_range_add]
    congr 1
    · refine Finset.sum_congr rfl fun i hi => ?_
      rw [Finset.mem_range] at hi
      unfold bidir
      rw [if_pos hi, h.1]
    · refine Finset.sum_congr rfl fun i hi => ?_
      rw [Finset.mem_range] at hi
      unfold bidir
      rw [if_neg (by omega), Nat.add_sub_cancel_left, h.2 k i hi]
  unfold forecast output affine
  rw [key, key, List.reverse_reverse]
  ring

end PyF.LstmBidir
