import Mathlib.Data.Rat.Defs
import Mathlib.Algebra.Order.Ring.Rat
import Mathlib.Data.List.Basic

/-!
Specification vocabulary for empirical quantiles, stated by counting (no sorting, no interpolation).
-/

namespace PyF.Quantile.Spec

/-- `v` is an empirical `q`-quantile of `sample` in the "q (n-1)" convention: more than `q (n-1)` of
the observations are at most `v`, and more than `(1-q) (n-1)` are at least `v`. -/
def IsEmpiricalQuantile (sample : List ℚ) (q v : ℚ) : Prop :=
  q * ((sample.length : ℚ) - 1) < (sample.countP (fun e => decide (e ≤ v)) : ℚ) ∧
  (1 - q) * ((sample.length : ℚ) - 1) < (sample.countP (fun e => decide (v ≤ e)) : ℚ)

/-- `v` lies between two observations. -/
def WithinSample (sample : List ℚ) (v : ℚ) : Prop :=
  (∃ e ∈ sample, e ≤ v) ∧ (∃ e ∈ sample, v ≤ e)

/-- Largest / smallest observation. -/
def IsMax (sample : List ℚ) (v : ℚ) : Prop := v ∈ sample ∧ ∀ e ∈ sample, e ≤ v
def IsMin (sample : List ℚ) (v : ℚ) : Prop := v ∈ sample ∧ ∀ e ∈ sample, v ≤ e

end PyF.Quantile.Spec
