import Verif.ReconCov.Props
import Mathlib.Analysis.Matrix.Spectrum

namespace PyF.Recon
open PyF Matrix

section
variable {ι : Type} [Fintype ι] [DecidableEq ι]

/-- Every symmetric matrix has a pseudo-inverse: reciprocals of the eigenvalues that are not zero. -/
theorem pinv_exists (A : Matrix ι ι ℝ) (hA : Aᵀ = A) : ∃ B, Penrose A B := by
  have h : A.IsHermitian := by
    unfold Matrix.IsHermitian
    rw [conjTranspose_eq_transpose_of_trivial]
    exact hA
  have hs := h.spectral_theorem
  generalize Unitary.conjStarAlgAut ℝ _ h.eigenvectorUnitary = φ at hs
  generalize (RCLike.ofReal ∘ h.eigenvalues : ι → ℝ) = d at hs
  refine ⟨φ (diagonal fun i => (d i)⁻¹), ?_⟩
  have hst : ∀ X : Matrix ι ι ℝ, (φ X)ᵀ = φ Xᵀ := by
    intro X
    rw [← conjTranspose_eq_transpose_of_trivial, ← conjTranspose_eq_transpose_of_trivial, ← star_eq_conjTranspose, ← star_eq_conjTranspose, map_star]
  rw [hs]
  constructor
  · rw [← map_mul, ← map_mul, diagonal_mul_diagonal, diagonal_mul_diagonal]
    congr 2
    funext i
    exact mul_inv_mul_cancel (d i)
  · rw [← map_mul, ← map_mul, diagonal_mul_diagonal, diagonal_mul_diagonal]
    congr 2
    funext i
    have := mul_inv_mul_cancel (d i)⁻¹
    rwa [inv_inv] at this
  · rw [← map_mul, hst, diagonal_mul_diagonal, diagonal_transpose]
  · rw [← map_mul, hst, diagonal_mul_diagonal, diagonal_transpose]
end

open Classical in
/-- A routine that returns pseudo-inverses. -/
noncomputable def exPinv : PInv := fun _ _ _ A => if h : Aᵀ = A then (pinv_exists A h).choose else 0

theorem exPinv_ok : IsPInv exPinv := by
  intro ι _ _ A hA
  unfold exPinv
  rw [dif_pos hA]
  exact (pinv_exists A hA).choose_spec

-- C228: one aggregate above two bottom series; the base forecasts are wrong by one on the first row only, at both steps
example : ∃ m, fitMinT (N := Nat) (T := Nat) exPinv [(7, [0, 1])] 5 [0, 1, 7] 2 (fun _ _ _ => 0) (fun _ r c => if r = 0 ∧ c = 1 then 1 else 0) [0, 1] = .ok m :=
  (C228_fits_iff (N := Nat) exPinv exPinv_ok [(7, [0, 1])] 5 [[0, 1]] rfl [0, 1, 7] (by decide) ⟨0, by decide, by decide⟩ 2 _ _ _).2 fun t _ => ⟨1, by decide, 0, by decide, 1, by decide, by norm_num⟩
-- perfect in-sample base forecasts, or a constant bias, cannot be reconciled
example : ¬ ∃ m, fitMinT (N := Nat) (T := Nat) exPinv [(7, [0, 1])] 5 [0, 1, 7] 100 (fun _ r c => r + c) (fun _ r c => r + c) [0, 1] = .ok m := by
  rw [C228_fits_iff (N := Nat) exPinv exPinv_ok [(7, [0, 1])] 5 [[0, 1]] rfl [0, 1, 7] (by decide) ⟨0, by decide, by decide⟩ 100]
  intro h
  obtain ⟨c, _, r, _, r', _, hne⟩ := h 0 (by decide)
  exact hne (by ring)

end PyF.Recon
