import Mathlib.Data.Rat.Defs

/-! What the hyper-parameter search is checked against. -/

namespace PyF.Hyper.Spec

variable {N V : Type}

/-- The value a sequence of settings leaves for a name: that of the last setting naming it. -/
def Last (n : N) (settings : List (List (N × V))) (init v : V) : Prop :=
  (∃ (i : ℕ) (kw : List (N × V)), settings[i]? = some kw ∧ (n, v) ∈ kw ∧ ∀ (j : ℕ) (kw' : List (N × V)), i < j → settings[j]? = some kw' → ∀ w, (n, w) ∉ kw') ∨
  ((∀ kw ∈ settings, ∀ w, (n, w) ∉ kw) ∧ v = init)

/-- A best trial of a minimisation: no other value is smaller, and no earlier one is equal. -/
def Best (vals : List (Option ℚ)) (i : ℕ) : Prop :=
  ∃ q, vals[i]? = some (some q) ∧ (∀ (j : ℕ) r, vals[j]? = some (some r) → q ≤ r) ∧ ∀ (j : ℕ), j < i → vals[j]? ≠ some (some q)

end PyF.Hyper.Spec
