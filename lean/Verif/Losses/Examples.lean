import Verif.Losses.Props2

/-! Concrete instances of the properties of the losses. -/

namespace PyF.Losses
open Spec

/-- Two rows in the same order score -1. -/
example : ∃ r, monotonicRight (fun i : Fin 2 => ((i : ℕ) : ℝ) * 3 + 1) (fun i : Fin 2 => ((i : ℕ) : ℝ)) = some r ∧ r = -1 := by
  obtain ⟨r, h, -, -, hb⟩ := C199_range (le_refl 2) (fun i : Fin 2 => ((i : ℕ) : ℝ) * 3 + 1) (fun i : Fin 2 => ((i : ℕ) : ℝ))
  refine ⟨r, h, hb.2 ?_⟩
  intro i j
  fin_cases i <;> fin_cases j <;> norm_num [Before]

/-- A batch of one row has no loss. -/
example : monotonicRight (fun _ : Fin 1 => (2 : ℝ)) (fun _ : Fin 1 => 3) = none := C199_single_row (le_refl 1) _ _

/-- Ten rows in reversed order scoring -31/33. -/
example : ∃ objs : Fin 10 → ℝ, Function.Injective objs ∧ monotonicRight (fun i => -objs i) objs = some (-31 / 33) := by
  obtain ⟨o, h1, h2⟩ := C199_reversed 5 (by norm_num)
  refine ⟨o, h1, ?_⟩
  rw [h2]
  norm_num

/-- Exchanging rows of a batch of three. -/
example : ∃ (hat objs : Fin 3 → ℝ) (a b : Fin 3),
    monotonicRight (hat ∘ Equiv.swap a b) (objs ∘ Equiv.swap a b) ≠ monotonicRight hat objs := C199_row_order (le_refl 3)

/-- Pairwise different predictions. -/
example : ∃ ε > 0, ∀ h : Fin 3 → ℝ, (∀ i, |h i - ((i : ℕ) : ℝ)| < ε) →
    monotonicRight h (fun _ => 0) = monotonicRight (fun i : Fin 3 => ((i : ℕ) : ℝ)) (fun _ => 0) :=
  C200_locally_constant _ _ cast_inj_fin

/-- The embedding (1, -1) of two rows is not penalised. -/
example (r : ℝ) (h : klLoss (fun (i : Fin 2) (_ : Fin 1) => if i = 0 then (1 : ℝ) else -1) = some r) : r = 0 := by
  apply ((C201_penalty (by norm_num) (le_refl 1) _).2 r h).2.2
  intro j
  constructor
  · simp [Fin.sum_univ_two]
  · simp

/-- A collapsed embedding. -/
example : ∃ r, klLoss (fun (_ : Fin 4) (_ : Fin 1) => Real.sqrt (1 / 2)) = some r ∧ r = Real.log 2 := by
  obtain ⟨r, h, -, hb⟩ := C201_collapsed (n := 4) (k := 1) (by norm_num) (le_refl 1) (fun _ => Real.sqrt (1 / 2))
    (fun _ => (Real.sqrt_pos.2 (by norm_num)).ne')
  exact ⟨r, h, hb.2 (fun _ => Real.sq_sqrt (by norm_num))⟩

/-- Perfect predictions of a structured network. -/
example : ∃ r, structuredLoss (fun (p : Fin 2 → Fin 1 → ℝ) i => p i 0) (fun i _ => ((i : ℕ) : ℝ)) (fun i _ => ((i : ℕ) : ℝ)) = some r ∧ r = -1 := by
  obtain ⟨r, h, -, hb⟩ := (C202_structured (n := 2) (d := 1) (le_refl 1) (fun p i => p i 0) (fun i _ => ((i : ℕ) : ℝ))
    (fun i _ => ((i : ℕ) : ℝ))).2 (le_refl 2)
  exact ⟨r, h, hb.2 rfl⟩

/-- A latent network with wrong predictions pays. -/
example (r : ℝ) (h : embeddedLoss (fun (_ : Fin 2) (_ : Fin 1) => (1 : ℝ)) (fun _ _ => 0) (fun _ _ => 1)
    (fun (i : Fin 2) (_ : Fin 1) => if i = 0 then (1 : ℝ) else -1) (fun (_ : Fin 2) (_ : Fin 1) => (0 : ℝ)) (fun _ _ => 0) = some r) : r ≠ 0 := by
  intro hz
  have := ((C202_embedded (by norm_num) (le_refl 1) (le_refl 1) (le_refl 1) _ _ _ _ _ _ r h).2.1 hz).1
  have := congrFun (congrFun this 0) 0
  norm_num at this

/-- A pair ordered differently. -/
example : monotonicRelax [((0 : Fin 2), 1)] (fun i => -((i : ℕ) : ℝ)) (fun i => ((i : ℕ) : ℝ)) = -1 := by
  have := ((C203_relax (n := 2) [] (fun i => -((i : ℕ) : ℝ)) (fun i => ((i : ℕ) : ℝ))).2.2 0 1 (by norm_num)).1
  rw [this]
  norm_num

end PyF.Losses
