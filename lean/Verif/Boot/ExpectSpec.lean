import Mathlib.Data.Rat.Defs
import Mathlib.Algebra.Order.Field.Rat
import Mathlib.Data.Fintype.Pi
import Mathlib.Algebra.BigOperators.Group.Finset.Basic

/-! Specification for C307: averages over all equally likely draws. -/

namespace PyF.Boot

/-- The average of `g` over a finite set of equally likely outcomes. -/
def avg {α : Type} [Fintype α] (g : α → ℚ) : ℚ := (∑ a, g a) / Fintype.card α

/-- `N` resamples of the labels: the `j`-th label of the `i`-th is the one at the position `ω i j`, drawn with replacement. -/
def draws (labels : List Nat) {N : Nat} (ω : Fin N → Fin labels.length → Fin labels.length) : List (List Nat) :=
  List.ofFn (fun (i : Fin N) => List.ofFn (fun (j : Fin labels.length) => labels.get (ω i j)))

end PyF.Boot
