import Verif.ReconCov.Examples

namespace PyF.Recon
open PyF Matrix

/-- One aggregate above one bottom series. -/
def wSys : Sys Nat := ⟨[1], [[0]], [0]⟩

/-- Base forecasts on two rows: exact for the aggregate, wrong by one for the bottom series. -/
def wHat : Unit → Nat → Nat → ℝ := fun _ r c => if c = 0 then (if r = 0 then 1 else -1) else 0

/-- C229 (limits of the guarantee): the plain variance of a series' training errors can grow: here the base forecasts of the aggregate are exact and its reconciled forecasts are not, although all targets are coherent. -/
theorem C229_variance_may_grow (pinv : PInv) (hp : IsPInv pinv) :
    ∃ P, wSys.fitP (minTWeights pinv 2 (fun _ _ _ => 0) wHat wSys ()) = .ok P ∧ variance 2 (fun r => 0 - wHat () r 1) = 0 ∧ 0 < variance 2 (fun r => 0 - wSys.values P (wHat () r) (.inl ⟨0, by decide⟩)) := by
  have hv : ∃ i : wSys.Idx, ∃ r < 2, ∃ r' < 2, (fun _ _ _ => (0 : ℝ)) () r (wSys.name i) - wHat () r (wSys.name i) ≠ (fun (_ : Unit) (_ _ : Nat) => (0 : ℝ)) () r' (wSys.name i) - wHat () r' (wSys.name i) :=
    ⟨.inr ⟨0, by decide⟩, 0, by decide, 1, by decide, by norm_num [wHat, Sys.name, wSys]⟩
  obtain ⟨P, hP⟩ := (C61_positive_definite_fits wSys _ ((weights_cases pinv hp 2 (fun (_ : Unit) (_ _ : Nat) => (0 : ℝ)) wHat wSys ()).1 hv).2.2).1
  refine ⟨P, hP, ?_, ?_⟩
  · rw [variance_eq_zero]
    intro r _ r' _
    simp [wHat]
  obtain ⟨a, h1, h2, h3, h4, _⟩ := C229_least_penalised_variance pinv hp wSys 2 (fun (_ : Unit) (_ _ : Nat) => (0 : ℝ)) wHat () hv P hP (.inl ⟨0, by decide⟩)
  have hsum : ∀ g : wSys.Idx → ℝ, ∑ j, g j = g (.inl ⟨0, by decide⟩) + g (.inr ⟨0, by decide⟩) := by
    intro g
    rw [Fintype.sum_sum_type]
    congr 1
    · exact Fintype.sum_unique (ι := Fin 1) (fun k => g (.inl k))
    · exact Fintype.sum_unique (ι := Fin 1) (fun k => g (.inr k))
  have hS1 : ∀ b : Fin wSys.bottoms.length → ℝ, (wSys.S *ᵥ b) (.inl ⟨0, by decide⟩) = b ⟨0, by decide⟩ := by
    intro b
    change ∑ k : Fin 1, wSys.S (.inl ⟨0, by decide⟩) k * b k = _
    rw [Fintype.sum_unique]
    have : wSys.S (.inl ⟨0, by decide⟩) (default : Fin 1) = 1 := by
      change (if (0 : Nat) ∈ [0] then (1 : ℝ) else 0) = 1
      simp
    rw [this, one_mul]
    rfl
  have hS2 : ∀ b : Fin wSys.bottoms.length → ℝ, (wSys.S *ᵥ b) (.inr ⟨0, by decide⟩) = b ⟨0, by decide⟩ := by
    intro b
    change ∑ k : Fin 1, wSys.S (.inr ⟨0, by decide⟩) k * b k = _
    rw [Fintype.sum_unique]
    have : wSys.S (.inr ⟨0, by decide⟩) (default : Fin 1) = 1 := by
      exact Matrix.one_apply_eq (n := Fin 1) (α := ℝ) 0
    rw [this, one_mul]
    rfl
  have hone : a (.inl ⟨0, by decide⟩) + a (.inr ⟨0, by decide⟩) = 1 := by
    have := h2 (fun _ => 1)
    rw [hsum, hS1, hS2] at this
    linarith
  have herr : ∀ r, 0 - wSys.values P (wHat () r) (.inl ⟨0, by decide⟩) = a (.inr ⟨0, by decide⟩) * (if r = 0 then -1 else 1) := by
    intro r
    rw [h1, hsum]
    have e1 : wHat () r (wSys.name (.inl ⟨0, by decide⟩)) = 0 := by simp [wHat, Sys.name, wSys]
    have e2 : wHat () r (wSys.name (.inr ⟨0, by decide⟩)) = if r = 0 then 1 else -1 := by simp [wHat, Sys.name, wSys]
    rw [e1, e2]
    split <;> ring
  refine lt_of_le_of_ne (variance_nonneg _ _) fun h0 => ?_
  have hz := (variance_eq_zero 2 _).1 h0.symm 0 (by decide) 1 (by decide)
  simp only [herr] at hz
  norm_num at hz
  have ha0 : a (.inr ⟨0, by decide⟩) = 0 := by linarith
  have ha1 : a (.inl ⟨0, by decide⟩) = 1 := by linarith
  have h5 := h4 (fun j => Sum.elim (fun _ => 19 / 20) (fun _ => 1 / 20) j) (by
    intro b
    rw [hsum, hS1, hS2]
    simp only [Sum.elim_inl, Sum.elim_inr]
    ring)
  unfold penalised at h5
  simp only [hsum, Sum.elim_inl, Sum.elim_inr, ha0, ha1, meanVar, variance, Finset.sum_range_succ, Finset.sum_range_zero] at h5
  have e1 : ∀ r, wHat () r (wSys.name (.inl ⟨0, by decide⟩)) = 0 := by intro r; simp [wHat, Sys.name, wSys]
  have e2 : ∀ r, wHat () r (wSys.name (.inr ⟨0, by decide⟩)) = if r = 0 then 1 else -1 := by intro r; simp [wHat, Sys.name, wSys]
  have hcard : Fintype.card wSys.Idx = 2 := rfl
  simp only [e1, e2, hcard] at h5
  norm_num at h5

end PyF.Recon
