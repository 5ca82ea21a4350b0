import Verif.Pmf.QrfProps

/-! Concrete instances of C313. -/

namespace PyF.Pmf

/-- Two targets, two levels: the first target around 0, the second around 10. -/
def exQ : Fin 1 → Fin ["a", "b"].length → Fin [(1 / 4 : ℚ), 3 / 4].length → ℚ := fun _ j l => 10 * j.val + l.val

-- Two levels asked from an object with one level: the totals are two.
example : ∃ P, qrfPmf 1 [0, 5, 20] ["a", "b"] [1 / 4, 3 / 4] exQ = .ok P ∧ P.length = 1 ∧
    (∀ i < 1, (P.getD i []).length = 2) ∧ ∀ i < 1, ∀ j < 2, (((P.getD i []).getD j []).sum : ℚ) = (2 : ℕ) / (1 : ℕ) :=
  C313_total 1 [0, 5, 20] ["a", "b"] [1 / 4, 3 / 4] exQ (by norm_num) (by simp) (by simp) (by norm_num) (by norm_num) (by simp) (by
    intro i j l
    refine ⟨0, 20, rfl, rfl, ?_, ?_⟩
    · unfold exQ; positivity
    · unfold exQ
      have h1 : (j.val : ℚ) ≤ 1 := by exact_mod_cast Nat.le_of_lt_succ j.2
      have h2 : (l.val : ℚ) ≤ 1 := by exact_mod_cast Nat.le_of_lt_succ l.2
      linarith)

-- The first target gets half of its mass from the second one, although all its quantiles are below 5.
example : (qrfPmf 2 [0, 5, 20] ["a", "b"] [1 / 4, 3 / 4] exQ).toOption = some [[[1 / 2, 1 / 2], [1 / 2, 1 / 2]]] := by decide +kernel

example : (0 : ℕ) < 2 ∧ ¬ (["a", "b"].length = 1 ∨ [(1 / 4 : ℚ), 3 / 4].length = 1) := by simp

-- Two rows of one target: both distributions are returned.
example : (pmfArray 2 [0, 5, 20] [[[1, 7]], [[2, 3]]]).toOption = some [[[1 / 2, 1 / 2]], [[1, 0]]] := by decide +kernel

end PyF.Pmf
