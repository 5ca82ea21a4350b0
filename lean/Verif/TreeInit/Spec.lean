import Mathlib.Order.Basic
import Mathlib.Data.Nat.Log
import Mathlib.Data.List.Chain

/-! Vocabulary for the default numbers of nodes. -/

namespace PyF.TreeInit.Spec

/-- A progression that is right up to rounding: increasing from 0, ending at `m` or just below. -/
def Rounded (p : ℕ → ℕ → ℕ → ℕ) : Prop :=
  ∀ m T, 1 ≤ m → (∀ i j, i ≤ j → j < T → p m T i ≤ p m T j) ∧ p m T 0 = 0 ∧ (2 ≤ T → p m T (T - 1) = m ∨ p m T (T - 1) + 1 = m)

/-- Numbers of nodes per step after the root that a tree of `n` scenarios can have: powers of two from 4 on, each dividing
the next, at most half as many as scenarios. -/
def GoodNodes (n : ℕ) (ns : List ℕ) : Prop :=
  List.IsChain (· ∣ ·) (1 :: ns) ∧ ∀ x ∈ ns, (∃ k, x = 2 ^ k) ∧ 4 ≤ x ∧ 2 * x ≤ n

end PyF.TreeInit.Spec
