import Mathlib.Algebra.Order.Field.Rat
import Mathlib.Algebra.Order.AbsoluteValue.Basic

/-! Vocabulary for the optimisation in the latent space. -/

namespace PyF.LatOpt.Spec

/-- The sequence of embeddings of an optimiser whose memory is reset to `s0` after every ten steps: embedding and memory
after `n` steps. -/
def traj {E S : Type} (step : E → S → E × S) (e0 : E) (s0 : S) : ℕ → E × S
  | 0 => (e0, s0)
  | n + 1 =>
    let r := step (traj step e0 s0 n).1 (traj step e0 s0 n).2
    (r.1, if (n + 1) % 10 = 0 then s0 else r.2)

/-- The embedding after `n` steps. -/
def point {E S : Type} (step : E → S → E × S) (e0 : E) (s0 : S) (n : ℕ) : E := (traj step e0 s0 n).1

/-- Relative improvement from `old` to `new`. -/
def improvement (old new : ℚ) : ℚ := (old - new) / (|old| + 1 / 10 ^ 12)

/-- Outcome of a minimisation of `f` along the points `pt` in blocks of ten steps, the first block not being checked: it stops
after `d` checked blocks, at the first one that improves too little or after `nIter / 10` of them. The histories hold the points
of all blocks except the one that improved too little. -/
def Outcome {E : Type} (pt : ℕ → E) (f : E → ℚ) (nIter : ℕ) (tol : ℚ) (embedding : E) (value : ℚ) (hist : List E) : Prop :=
  ∃ d h, 1 ≤ d ∧ d ≤ nIter / 10 ∧
    (∀ j, 1 ≤ j → j < d → tol ≤ improvement (f (pt (10 * j - 1))) (f (pt (10 * j + 9)))) ∧
    embedding = pt (10 * (d + 1)) ∧ value = f (pt (10 * d + 9)) ∧ hist = (List.range (10 * h)).map pt ∧
    ((h = d ∧ improvement (f (pt (10 * d - 1))) (f (pt (10 * d + 9))) < tol) ∨
     (h = d + 1 ∧ d = nIter / 10 ∧ tol ≤ improvement (f (pt (10 * d - 1))) (f (pt (10 * d + 9)))))

end PyF.LatOpt.Spec
