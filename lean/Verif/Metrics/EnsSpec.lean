import Mathlib.Data.Rat.Defs
import Mathlib.Algebra.Order.Field.Rat
import Mathlib.Algebra.BigOperators.Group.Finset.Basic
import Mathlib.Algebra.Order.Group.Unbundled.Abs

/-! Specification for C309: the continuous ranked probability score of a distribution that takes the values `f 0, …, f (N - 1)` with the same probability, `E|X - y| - E|X - X'| / 2`. -/

namespace PyF.Metrics

/-- The score of the distribution, `X` and `X'` independent. -/
def ensCrps (N : Nat) (f : Nat → ℚ) (y : ℚ) : ℚ :=
  (∑ k ∈ Finset.range N, |f k - y|) / N - (∑ k ∈ Finset.range N, ∑ k' ∈ Finset.range N, |f k - f k'|) / (N * N) / 2

/-- The fair score of a sample: `X'` is another member of the sample. -/
def fairCrps (N : Nat) (f : Nat → ℚ) (y : ℚ) : ℚ :=
  (∑ k ∈ Finset.range N, |f k - y|) / N - (∑ k ∈ Finset.range N, ∑ k' ∈ Finset.range N, |f k - f k'|) / (N * (N - 1)) / 2

/-- The middles of `N` equal parts of the interval from 0 to 1. -/
def midLevels (N : Nat) : List ℚ := (List.range N).map (fun (k : Nat) => (2 * (k : ℚ) + 1) / (2 * N))

end PyF.Metrics
