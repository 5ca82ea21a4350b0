import Mathlib.Data.Real.Basic

/-!
What a user means by convex, quasi-convex and monotone in the controls. Nothing here mentions the network.
-/

namespace PyF.ICNN

/-- The point at fraction `t` of the segment from `y` to `y'`. -/
def seg (t : ℝ) (y y' : ℕ → ℝ) : ℕ → ℝ := fun i => (1 - t) * y i + t * y' i

/-- `f` lies below its chords. -/
def ConvexIn (f : (ℕ → ℝ) → ℝ) : Prop := ∀ (y y' : ℕ → ℝ) (t : ℝ), 0 ≤ t → t ≤ 1 → f (seg t y y') ≤ (1 - t) * f y + t * f y'

/-- On a segment `f` is at most the larger of its values at the ends. -/
def QuasiConvexIn (f : (ℕ → ℝ) → ℝ) : Prop := ∀ (y y' : ℕ → ℝ) (t : ℝ), 0 ≤ t → t ≤ 1 → f (seg t y y') ≤ max (f y) (f y')

/-- Raising some coordinates and lowering none does not lower `f`. -/
def MonotoneIn (f : (ℕ → ℝ) → ℝ) : Prop := ∀ y y' : ℕ → ℝ, (∀ i, y i ≤ y' i) → f y ≤ f y'

end PyF.ICNN
