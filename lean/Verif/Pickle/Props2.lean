import Verif.Pickle.Props

namespace PyF.Pickle
open PyF

variable {V : Type}

/-- C223: the states of the three classes, as a caller reads them from `__getstate__()` of a constructed object: the names of `Fourier_es` are among those of
`FK`, those of `FK_multi` are among those of `FK`; `P`, `R` and `Q` belong to `FK` and `FK_multi` only. So a state of a `Fourier_es` given to an `FK` leaves
the covariances of the receiver, and one of an `FK` given to a `Fourier_es` adds states the class never reads. -/
theorem C223_class_names (init : String → V) (attrs : Dict V) (k : String) :
    (∃ s, getState (construct fourierNames init attrs) = .ok s ∧ ((s k).isSome ↔ k ∈ ["x", "w", "eps", "last_1sa_preds"])) ∧
      (∃ s, getState (construct fkNames init attrs) = .ok s ∧ ((s k).isSome ↔ k ∈ ["x", "P", "R", "Q", "w", "eps", "last_1sa_preds"])) ∧
      (∃ s, getState (construct multiNames init attrs) = .ok s ∧ ((s k).isSome ↔ k ∈ ["x", "P", "R", "Q"])) := by
  have key : ∀ names : List String, ∃ s, getState (construct names init attrs) = .ok s ∧ ((s k).isSome ↔ k ∈ names) := by
    intro names
    refine ⟨fun k => if k ∈ names then some (init k) else none, rfl, ?_⟩
    by_cases h : k ∈ names <;> simp [h]
  exact ⟨key fourierNames, key fkNames, key multiNames⟩

/-- C223: a state of a `Fourier_es` given to an `FK`: the covariances stay. -/
theorem C223_between_classes (i i' : String → V) (a a' : Dict V) :
    ∃ s r t, getState (construct fourierNames i a) = .ok s ∧ setState (construct fkNames i' a') s = .ok r ∧ r.states = some t ∧
      (∀ k ∈ ["x", "w", "eps", "last_1sa_preds"], t k = some (i k)) ∧ ∀ k ∈ ["P", "R", "Q"], t k = some (i' k) := by
  refine ⟨_, _, _, rfl, rfl, rfl, ?_, ?_⟩
  · intro k hk
    have : k ∈ fourierNames := hk
    simp [Dict.update, this]
  · intro k hk
    have h1 : k ∉ fourierNames := by
      simp only [List.mem_cons, List.not_mem_nil, or_false] at hk
      rcases hk with rfl | rfl | rfl <;> decide
    have h2 : k ∈ fkNames := by
      simp only [List.mem_cons, List.not_mem_nil, or_false] at hk
      rcases hk with rfl | rfl | rfl <;> decide
    simp [Dict.update, h1, h2]

end PyF.Pickle
