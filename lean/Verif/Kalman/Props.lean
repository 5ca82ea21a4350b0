import Verif.Kalman.Model
import Mathlib.Tactic.NoncommRing
import Mathlib.Tactic.FieldSimp
import Mathlib.Tactic.Linarith
import Mathlib.Tactic.Ring
import Mathlib.Tactic.Abel
import Mathlib.Analysis.Matrix.Order
import Mathlib.LinearAlgebra.Matrix.SchurComplement

namespace PyF.Kalman
open Matrix

variable {n m : Type} [Fintype n] [DecidableEq n] [Fintype m] [DecidableEq m]

/-- The covariance of the Bayesian posterior in information form, `(P⁻¹ + Hᵀ R⁻¹ H)⁻¹`, written without inverting `P`:
`X (P⁻¹ + Hᵀ R⁻¹ H) = 1` multiplied by `P` from the right. -/
def IsPosterior (X P : Matrix n n ℝ) (H : Matrix m n ℝ) (R : Matrix m m ℝ) : Prop :=
  X + X * (Hᵀ * (R⁻¹ * (H * P))) = P

omit [DecidableEq n] [DecidableEq m] in
theorem innov_posDef {P : Matrix n n ℝ} {H : Matrix m n ℝ} {R : Matrix m m ℝ} (hP : P.PosSemidef) (hR : R.PosDef) :
    (H * (P * Hᵀ) + R).PosDef := by
  have h1 : (H * (P * Hᵀ)).PosSemidef := by
    have := hP.mul_mul_conjTranspose_same H
    rwa [Matrix.mul_assoc, conjTranspose_eq_transpose_of_trivial] at this
  exact PosDef.posSemidef_add h1 hR

omit [Fintype n] [DecidableEq n] in
theorem psd_symm {P : Matrix n n ℝ} (hP : P.IsHermitian) : Pᵀ = P := by
  rw [← conjTranspose_eq_transpose_of_trivial]; exact hP

section
variable {P : Matrix n n ℝ} {H : Matrix m n ℝ} {R : Matrix m m ℝ}

omit [DecidableEq n] in
theorem gain_mul (hP : P.PosSemidef) (hR : R.PosDef) : gain P H R * (H * (P * Hᵀ) + R) = P * Hᵀ := by
  unfold gain
  have hS := (innov_posDef (H := H) hP hR).isUnit
  rw [Matrix.mul_assoc, Matrix.mul_assoc, nonsing_inv_mul _ ((isUnit_iff_isUnit_det _).1 hS), Matrix.mul_one]

omit [DecidableEq n] in
theorem gain_mul' (hP : P.PosSemidef) (hR : R.PosDef) : (H * (P * Hᵀ) + R) * (gain P H R)ᵀ = H * P := by
  have h := congrArg transpose (gain_mul (H := H) hP hR)
  rw [transpose_mul, transpose_mul, transpose_transpose, psd_symm hP.1, psd_symm (innov_posDef (H := H) hP hR).1] at h
  exact h

/-- `(1 - K H) P Hᵀ = K R`. -/
theorem resid_gain (hP : P.PosSemidef) (hR : R.PosDef) : (1 - gain P H R * H) * (P * Hᵀ) = gain P H R * R := by
  have h := gain_mul (H := H) hP hR
  rw [Matrix.mul_add] at h
  rw [Matrix.sub_mul, Matrix.one_mul, Matrix.mul_assoc, sub_eq_iff_eq_add']
  exact h.symm

theorem joseph (hP : P.PosSemidef) (hR : R.PosDef) :
    (1 - gain P H R * H) * (P * (1 - gain P H R * H)ᵀ) + gain P H R * (R * (gain P H R)ᵀ) = P - gain P H R * (H * P) := by
  have h := resid_gain (H := H) hP hR
  rw [transpose_sub, transpose_one, transpose_mul, Matrix.mul_sub, Matrix.mul_one, ← Matrix.mul_assoc P, Matrix.mul_sub,
    ← Matrix.mul_assoc _ (P * Hᵀ), h, Matrix.mul_assoc (gain P H R) R]
  rw [Matrix.sub_mul, Matrix.one_mul, Matrix.mul_assoc (gain P H R) H P]
  abel

omit [DecidableEq n] in
theorem drop_eq (hP : P.PosSemidef) (hR : R.PosDef) :
    gain P H R * (H * P) = gain P H R * ((H * (P * Hᵀ) + R) * (gain P H R)ᵀ) := by
  rw [gain_mul' hP hR]

theorem conj_psd {k l : Type} [Fintype k] [Fintype l] {A : Matrix k k ℝ} (hA : A.PosSemidef) (B : Matrix l k ℝ) : (B * (A * Bᵀ)).PosSemidef := by
  have := hA.mul_mul_conjTranspose_same B
  rwa [Matrix.mul_assoc, conjTranspose_eq_transpose_of_trivial] at this

/-- The covariance of L37 alone is the posterior covariance, and the only solution of the defining equation. -/
theorem posterior_iff (hP : P.PosSemidef) (hR : R.PosDef) (X : Matrix n n ℝ) :
    IsPosterior X P H R ↔ X = P - gain P H R * (H * P) := by
  have hRu : IsUnit R.det := (isUnit_iff_isUnit_det _).1 hR.isUnit
  have hsol : IsPosterior (P - gain P H R * (H * P)) P H R := by
    unfold IsPosterior
    have h := resid_gain (H := H) hP hR
    have h2 : (P - gain P H R * (H * P)) * (Hᵀ * (R⁻¹ * (H * P))) = gain P H R * (H * P) := by
      have e : P - gain P H R * (H * P) = (1 - gain P H R * H) * P := by
        rw [Matrix.sub_mul, Matrix.one_mul, Matrix.mul_assoc]
      rw [e, Matrix.mul_assoc, ← Matrix.mul_assoc P, ← Matrix.mul_assoc _ (P * Hᵀ), h, Matrix.mul_assoc, ← Matrix.mul_assoc R,
        mul_nonsing_inv _ hRu, Matrix.one_mul]
    rw [h2]; abel
  constructor
  · intro hX
    have hu : IsUnit (1 + Hᵀ * (R⁻¹ * (H * P))) := by
      rw [isUnit_iff_isUnit_det]
      rw [← Matrix.mul_assoc, det_one_add_mul_comm]
      have e : 1 + H * P * (Hᵀ * R⁻¹) = (H * (P * Hᵀ) + R) * R⁻¹ := by
        rw [Matrix.add_mul, mul_nonsing_inv _ hRu, add_comm]
        congr 1
        simp only [Matrix.mul_assoc]
      rw [e, det_mul]
      refine IsUnit.mul ((isUnit_iff_isUnit_det _).1 (innov_posDef hP hR).isUnit) ?_
      exact (isUnit_iff_isUnit_det _).1 hR.inv.isUnit
    have h1 : X * (1 + Hᵀ * (R⁻¹ * (H * P))) = P := by rw [Matrix.mul_add, Matrix.mul_one]; exact hX
    have h2 : (P - gain P H R * (H * P)) * (1 + Hᵀ * (R⁻¹ * (H * P))) = P := by rw [Matrix.mul_add, Matrix.mul_one]; exact hsol
    exact hu.mul_right_cancel (h1.trans h2.symm)
  · rintro rfl
    exact hsol

/-- C44: with a positive semidefinite prior covariance and positive definite noise the returned covariance is symmetric
positive semidefinite, but it is not the posterior covariance `X`: it never exceeds `X` (which never exceeds the prior), and
equals it only when the observation says nothing about the state (`P Hᵀ = 0`). -/
theorem C44_covariance_overconfident (hP : P.PosSemidef) (hR : R.PosDef) (x : n → ℝ) (y : m → ℝ) :
    ∃ X, IsPosterior X P H R ∧ (∀ Z, IsPosterior Z P H R → Z = X) ∧ X.PosSemidef ∧ (kUpdate x P y H R).2.PosSemidef ∧
      (P - X).PosSemidef ∧ (X - (kUpdate x P y H R).2).PosSemidef ∧ ((kUpdate x P y H R).2 = X ↔ P * Hᵀ = 0) := by
  set K := gain P H R with hK
  set S := H * (P * Hᵀ) + R with hS
  set A := 1 - K * H with hA
  have hSp : S.PosDef := innov_posDef hP hR
  have hpsd : (P - K * (H * P)).PosSemidef := by
    rw [hK, ← joseph hP hR]
    exact (conj_psd hP _).add (conj_psd hR.posSemidef _)
  have hupd : (kUpdate x P y H R).2 = A * ((P - K * (H * P)) * Aᵀ) + K * (R * Kᵀ) := rfl
  have hdiff : (P - K * (H * P)) - (kUpdate x P y H R).2 = A * K * (S * (A * K)ᵀ) := by
    rw [hupd]
    have hj := joseph (H := H) hP hR
    rw [← hK, ← hA] at hj
    have hd := drop_eq (H := H) hP hR
    rw [← hK, ← hS] at hd
    conv_lhs => lhs; rw [← hj]
    rw [add_sub_add_right_eq_sub, ← Matrix.mul_sub, ← Matrix.sub_mul, sub_sub_cancel, hd, transpose_mul]
    simp only [Matrix.mul_assoc]
  refine ⟨P - K * (H * P), (posterior_iff hP hR _).2 rfl, fun Z hZ => (posterior_iff hP hR Z).1 hZ, hpsd, ?_, ?_, ?_, ?_⟩
  · rw [hupd]
    exact (conj_psd hpsd _).add (conj_psd hR.posSemidef _)
  · rw [sub_sub_cancel]
    have hd := drop_eq (H := H) hP hR
    rw [← hK, ← hS] at hd
    rw [hd]
    exact conj_psd hSp.posSemidef _
  · rw [hdiff]
    exact conj_psd hSp.posSemidef _
  · have hAKS : A * K * S = K * R := by
      have := resid_gain (H := H) hP hR
      rw [← hK, ← hA, ← gain_mul hP hR, ← hK, ← hS] at this
      rw [Matrix.mul_assoc]; exact this
    have hSu : IsUnit S := hSp.isUnit
    have hRu : IsUnit R := hR.isUnit
    constructor
    · intro he
      rw [he, sub_self] at hdiff
      have h0 : A * K = 0 := by
        have hh : (A * K) * S * (A * K)ᴴ = 0 := by
          rw [conjTranspose_eq_transpose_of_trivial, Matrix.mul_assoc]; exact hdiff.symm
        ext i j
        by_contra hne
        have hv : (A * K) i ≠ 0 := fun e => hne (by rw [e]; rfl)
        have hpos := hSp.dotProduct_mulVec_pos hv
        have hz := congrFun (congrFun hdiff i) i
        rw [Matrix.zero_apply, Matrix.mul_apply] at hz
        have : star ((A * K) i) ⬝ᵥ S *ᵥ ((A * K) i) = ∑ j, (A * K) i j * (S * (A * K)ᵀ) j i := by
          simp only [dotProduct, mulVec, Pi.star_apply, star_trivial, Matrix.mul_apply, transpose_apply]
        rw [this, ← hz] at hpos
        exact lt_irrefl _ hpos
      rw [h0, Matrix.zero_mul] at hAKS
      have hK0 : K = 0 := by
        have h3 := congrArg (fun M => M * R⁻¹) hAKS
        simp only [Matrix.zero_mul, Matrix.mul_assoc] at h3
        rw [mul_nonsing_inv _ ((isUnit_iff_isUnit_det _).1 hRu), Matrix.mul_one] at h3
        exact h3.symm
      rw [← gain_mul hP hR, ← hK, hK0, Matrix.zero_mul]
    · intro h0
      have hK0 : K = 0 := by
        rw [hK]; unfold gain
        rw [← Matrix.mul_assoc, h0, Matrix.zero_mul]
      rw [hupd, hA, hK0]
      simp

/-- C44 (mean): the state estimate, in contrast, is the posterior mean: `x'` solves `x' = x + X Hᵀ R⁻¹ (y - H x)` with the
posterior covariance `X`. -/
theorem C44_mean_is_posterior_mean (hP : P.PosSemidef) (hR : R.PosDef) (x : n → ℝ) (y : m → ℝ) (X : Matrix n n ℝ)
    (hX : IsPosterior X P H R) : (kUpdate x P y H R).1 = x + (X * (Hᵀ * R⁻¹)) *ᵥ (y - H *ᵥ x) := by
  have hRu : IsUnit R.det := (isUnit_iff_isUnit_det _).1 hR.isUnit
  rw [posterior_iff hP hR] at hX
  have e : X * (Hᵀ * R⁻¹) = gain P H R := by
    have h := resid_gain (H := H) hP hR
    have e : P - gain P H R * (H * P) = (1 - gain P H R * H) * P := by
      rw [Matrix.sub_mul, Matrix.one_mul, Matrix.mul_assoc]
    rw [hX, e, Matrix.mul_assoc, ← Matrix.mul_assoc P, ← Matrix.mul_assoc _ (P * Hᵀ), h, Matrix.mul_assoc,
      mul_nonsing_inv _ hRu, Matrix.mul_one]
  rw [e]
  rfl

end

/-- C44 (filter): along any number of `kalman` steps, the covariance stays symmetric positive semidefinite. -/
theorem C44_filter_psd (F Q : Matrix n n ℝ) (H : Matrix m n ℝ) (R : Matrix m m ℝ) (hQ : Q.PosSemidef) (hR : R.PosDef) (ys : List (m → ℝ)) :
    ∀ (x : n → ℝ) (P : Matrix n n ℝ), P.PosSemidef →
      (ys.foldl (fun s y => kalman s.1 s.2 F Q y H R) (x, P)).2.PosSemidef := by
  induction ys with
  | nil => intro x P hP; exact hP
  | cons y ys ih =>
    intro x P hP
    rw [List.foldl_cons]
    have h1 : (F * (P * Fᵀ) + Q).PosSemidef := (conj_psd hP F).add hQ
    obtain ⟨_, _, _, _, h2, _⟩ := C44_covariance_overconfident (H := H) h1 hR (F *ᵥ x) y
    exact ih _ _ h2

/-- C44 (scalar instance): prior variance 1, noise variance 1: posterior variance 1/2, returned variance 3/8. -/
example : (kUpdate (fun _ : Fin 1 => 0) 1 (fun _ : Fin 1 => 1) (1 : Matrix (Fin 1) (Fin 1) ℝ) 1).2 = fun _ _ => 3 / 8 := by
  ext i j
  fin_cases i; fin_cases j
  simp [kUpdate, gain, Matrix.mul_apply]
  norm_num

end PyF.Kalman
