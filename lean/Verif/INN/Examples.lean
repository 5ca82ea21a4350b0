import Verif.INN.Props
import Verif.INN.CtorProps

namespace PyF.INN

open PyF

/-- Two layers on two features. -/
noncomputable def la : Layer := { vec := [1], bias := fun _ => 0 }
noncomputable def lb : Layer := { vec := [-1], bias := fun i => i }

theorem la_zero (x : ℕ → ℝ) : affine 0 2 la x 0 = x 0 := by
  unfold affine; rw [row_sum (kernel_unitLower 0 2 la.vec) (by norm_num)]; simp [la]

theorem la_one (x : ℕ → ℝ) : affine 0 2 la x 1 = x 1 := by
  unfold affine; rw [row_sum (kernel_unitLower 0 2 la.vec) (by norm_num)]; simp [la, kernel]

/-- A clear input: (1, 2). -/
theorem clear_example : Clear 0 2 [la, lb] (fun i => (i : ℝ) + 1) := by
  refine ⟨fun i hi => ?_, trivial⟩
  have h : i = 0 ∨ i = 1 := by omega
  rcases h with rfl | rfl
  · rw [la_zero]; norm_num [eps]
  · rw [la_one]; norm_num [eps]

example (i : ℕ) (hi : i < 2) : invert 0 2 [la, lb] (embed 0 2 [la, lb] (fun i => (i : ℝ) + 1)) i = (i : ℝ) + 1 :=
  C72_invert_embed 0 2 [la, lb] _ clear_example i hi

/-- The values between the layers of an embedding of a clear input are outside the gap. -/
example (i : ℕ) (hi : i < 2) : embed (1 / 10) 2 [lb] (invert (1 / 10) 2 [lb] (fun i => (i : ℝ) - 3)) i = (i : ℝ) - 3 :=
  C72_embed_invert (1 / 10) 2 [lb] _ trivial i hi

/-- Two inputs that agree on the first feature only. -/
example : embed (1 / 10) 2 [la, lb] (fun _ => 1) 0 = embed (1 / 10) 2 [la, lb] (fun i => if i = 0 then 1 else 7) 0 :=
  C72_causal_embed (1 / 10) 2 [la, lb] _ _ 0 (by norm_num) (fun j hj => by simp [show j = 0 by omega])

example : ∃ x x', (∃ i < 2, x i ≠ x' i) ∧ ∀ i < 2, embed (1 / 10) 2 [la, lb] x i = embed (1 / 10) 2 [la, lb] x' i :=
  C72_not_injective (1 / 10) 2 (by norm_num) la lb []

example : |affine (1 / 10) 2 lb (fun _ => 4) 1 - (4 + 1)| ≤ |1 / 10| * 4 := by
  have := C72_near_identity (1 / 10) 2 lb (fun _ => 4) 1 (by norm_num) 4 (fun _ _ => by norm_num) (by norm_num)
  simpa [lb] using this

/-- Three features: three parameters, rows (), (5), (6, 7). -/
example : (List.range 3).flatMap (fun i => (List.range i).map (lowerTri [5, 6, 7] i)) = [5, 6, 7] := (C72_triangle [5, 6, 7] 3 rfl).1

theorem tanh_one_ne : Real.tanh 1 ≠ 0 := by
  rw [Real.tanh_eq_sinh_div_cosh]
  exact div_ne_zero (by rw [Real.sinh_eq]; have := Real.exp_lt_exp.2 (show (-1 : ℝ) < 1 by norm_num); apply ne_of_gt; linarith) (Real.cosh_pos 1).ne'

/-- The defect is real: history (1, 1), default scaling, parameter 1: the decoded forecast is not the target. -/
example (y : ℕ → ℝ) : decodeForecast (1 / 10) 2 1 [la] (fun _ => 1) (targetEmbedding (1 / 10) 2 1 [la] (fun _ => 1) y) 0 ≠ y 0 := by
  rw [C126_offset]
  have hk : kernel (1 / 10) 2 la.vec 1 0 = Real.tanh 1 * (1 / 10) / 2 := by simp [kernel, la, lowerTri]
  rw [hk]
  simp only [la]
  intro h
  have : Real.tanh 1 * Real.tanh 1 = 0 := by nlinarith
  exact tanh_one_ne (mul_self_eq_zero.1 this)

/-- ... while with the history as long as the horizon it is exact. -/
example (i : ℕ) (hi : i < 2) : decodeForecast 0 2 2 [la, lb] (fun _ => 9) (targetEmbedding 0 2 2 [la, lb] (fun _ => 9) (fun i => (i : ℝ) + 1)) i = (i : ℝ) + 1 :=
  C126_equal_lengths 0 2 [la, lb] _ _ clear_example i hi

/-! ### Construction -/

def exArgs : Args := { nIn := 50, nOut := some 24, nLayers := 3, nPredictionLayers := 3, nHiddenY := 10, namesExogenous := some [['t'], ['u']], scalingFactor := 1, endToEnd := .quasi }

example : (match build exArgs with | .ok c => decide (c = { layers := 3, features := 48, scaling := 1, predictor := some ([200, 200, 24], 2) }) | .error _ => false) = true := by decide +kernel

example : build { exArgs with nOut := none } = .error .typeError := (C127_outcomes { exArgs with nOut := none }).1 rfl

example : build { exArgs with nIn := 25 } = .error .assertionError := (C127_outcomes { exArgs with nIn := 25 }).2.1 24 rfl (by decide)

def exRow : Row := [(['a'], 1), (['u'], 2), (['b'], 3), (['t'], 4)]

example : (match reorder [['t'], ['u']] exRow with | .ok c => decide (c = [(['t'], 4), (['u'], 2), (['a'], 1), (['b'], 3)]) | .error _ => false) = true := by decide +kernel

example : reorder [['t'], ['u']] exRow = reorder [['t'], ['u']] [(['u'], 2), (['t'], 4), (['a'], 1), (['b'], 3)] :=
  C128_position_irrelevant _ _ _ (by decide) (by decide) (by decide) (by decide)

example : reorder [['z']] exRow = .error .keyError := C128_missing _ _ ['z'] (by decide) (by decide)

example : endogenous 2 (futureWindow [7, 8, 1, 2, 3] [4]) = [2, 3, 4] := C128_window [7, 8] [1, 2, 3] [4] (by decide)

/-! ### Activations -/

example : linloglinInv (linloglin 5) = 5 := (C72_activation_exact_iff 5).1.2 (by norm_num [eps])

example : linloglinInv (linloglin 0) ≠ 0 := fun h => by
  have := (C72_activation_exact_iff 0).1.1 h
  norm_num [eps] at this

example (x : ℝ) : leakyReluInv (1 / 100) (leakyRelu (1 / 100) x) = x := (C125_leaky (1 / 100) (1 / 100) (by norm_num) (by norm_num)).2 rfl x

example : ∃ x, leakyReluInv (1 / 100) (leakyRelu (1 / 5) x) ≠ x := by
  by_contra h
  push Not at h
  have := (C125_leaky (1 / 5) (1 / 100) (by norm_num) (by norm_num)).1 h
  norm_num at this

example : invcondiffInv (Act.identity.apply (1 / 2)) = 1 / 2 := (C125_identity _).2 (Or.inl (by norm_num [abs_of_pos]))

end PyF.INN
