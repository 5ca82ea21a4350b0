import Verif.LstmBidir.Props

/-! C281, continued: what the exogenous features do. -/

namespace PyF.LstmBidir
open PyF PyF.LstmNet

theorem affine_diff (D : Dense) (m : ℕ) (x x' : ℕ → ℝ) (k : ℕ) : |affine D m x k - affine D m x' k| ≤ ∑ j ∈ Finset.range m, |D.W k j| * |x j - x' j| := by
  have : affine D m x k - affine D m x' k = ∑ j ∈ Finset.range m, D.W k j * (x j - x' j) := by
    unfold affine
    rw [add_sub_add_right_eq_sub, ← Finset.sum_sub_distrib]
    exact Finset.sum_congr rfl fun j _ => by ring
  rw [this]
  refine (Finset.abs_sum_le_sum_abs _ _).trans (le_of_eq ?_)
  exact Finset.sum_congr rfl fun j _ => abs_mul _ _

theorem reluLayer_diff (D : Dense) (m : ℕ) (x x' : ℕ → ℝ) (k : ℕ) : |reluLayer D m x k - reluLayer D m x' k| ≤ ∑ j ∈ Finset.range m, |D.W k j| * |x j - x' j| := by
  refine le_trans ?_ (affine_diff D m x x' k)
  unfold reluLayer
  exact abs_max_sub_max_le_abs _ _ _ |>.trans_eq' (by rw [max_comm 0, max_comm 0])

/-- C281 (exogenous features): with as many exogenous features, the forecast of step `k` moves by at most the scale of the target times the weights along all ways from
the changed features through both dense layers and the head. -/
theorem C281_exogenous_sensitivity (P : Params) (mean scale : ℝ) (s e e' : List ℝ) (hl : e.length = e'.length) (k : ℕ) :
    |forecast P mean scale s e k - forecast P mean scale s e' k|
      ≤ |scale| * ∑ i ∈ Finset.range 32, |P.headExog.W k i| * ∑ j ∈ Finset.range 64, |P.d2.W i j| * ∑ l ∈ Finset.range e.length, |P.d1.W j l| * |e.getD l 0 - e'.getD l 0| := by
  have e1 : forecast P mean scale s e k - forecast P mean scale s e' k
      = scale * (affine P.headExog 32 (exogOut P e) k - affine P.headExog 32 (exogOut P e') k) := by
    unfold forecast output
    ring
  rw [e1, abs_mul]
  refine mul_le_mul_of_nonneg_left ((affine_diff _ _ _ _ _).trans (Finset.sum_le_sum fun i _ => mul_le_mul_of_nonneg_left ?_ (abs_nonneg _))) (abs_nonneg _)
  unfold exogOut
  refine (reluLayer_diff _ _ _ _ _).trans (Finset.sum_le_sum fun j _ => mul_le_mul_of_nonneg_left ?_ (abs_nonneg _))
  rw [← hl]
  exact reluLayer_diff _ _ _ _ _

/-- C281 (exogenous features, direction): where the head of the exogenous features has no negative weight for step `k`, no exogenous features can lower the forecast below that of
the history and the two offsets alone; where it has no positive one, none can raise it above. -/
theorem C281_exogenous_one_sided (P : Params) (mean scale : ℝ) (hs : 0 ≤ scale) (s e : List ℝ) (k : ℕ) :
    ((∀ i < 32, 0 ≤ P.headExog.W k i) → (affine P.headSeq 128 (bidir P s) k + P.headExog.b k) * scale + mean ≤ forecast P mean scale s e k) ∧
    ((∀ i < 32, P.headExog.W k i ≤ 0) → forecast P mean scale s e k ≤ (affine P.headSeq 128 (bidir P s) k + P.headExog.b k) * scale + mean) := by
  have hpos : ∀ i, 0 ≤ exogOut P e i := fun i => le_max_left _ _
  have hf : forecast P mean scale s e k
      = (affine P.headSeq 128 (bidir P s) k + P.headExog.b k) * scale + mean + scale * ∑ i ∈ Finset.range 32, P.headExog.W k i * exogOut P e i := by
    unfold forecast output
    rw [show affine P.headExog 32 (exogOut P e) k = (∑ i ∈ Finset.range 32, P.headExog.W k i * exogOut P e i) + P.headExog.b k from rfl]
    ring
  rw [hf]
  constructor
  · intro hW
    have := mul_nonneg hs (Finset.sum_nonneg fun i hi => mul_nonneg (hW i (Finset.mem_range.1 hi)) (hpos i))
    linarith
  · intro hW
    have := mul_nonpos_of_nonneg_of_nonpos hs (Finset.sum_nonpos fun i hi => mul_nonpos_of_nonpos_of_nonneg (hW i (Finset.mem_range.1 hi)) (hpos i))
    linarith

end PyF.LstmBidir
