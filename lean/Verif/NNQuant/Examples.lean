import Verif.NNQuant.Props

namespace PyF.NNQuant

open PyF

/-- A symmetric increasing function standing for the normal quantile. -/
noncomputable def exZ (q : ℝ) : ℝ := q - 1 / 2

theorem exZ_ok : NormalQuantile exZ := ⟨fun p q _ h _ => by unfold exZ; linarith, fun q _ _ => by unfold exZ; ring⟩

/-- Mean 10, scale 2, unit variance: the 90 % quantile is wrong. -/
example : quantile exZ (some ⟨10, 2⟩) 0 1 (9 / 10) ≠ some (normalQ exZ ((⟨10, 2⟩ : Scaler).inverse 0) (Real.sqrt 1 * 2) (9 / 10)) := by
  intro h
  have := (C132_normalised_iff exZ_ok ⟨10, 2⟩ 0 1 (9 / 10) (by norm_num) (by norm_num) (by norm_num)).1 h
  norm_num at this

/-- ... and for a centred target it is right. -/
example : quantile exZ (some ⟨0, 2⟩) 0 1 (9 / 10) = some (normalQ exZ ((⟨0, 2⟩ : Scaler).inverse 0) (Real.sqrt 1 * 2) (9 / 10)) :=
  (C132_normalised_iff exZ_ok ⟨0, 2⟩ 0 1 (9 / 10) (by norm_num) (by norm_num) (by norm_num)).2 (Or.inl rfl)

/-- Mean -10, scale 2, unit variance: the 10 % quantile lies above the 90 % one. -/
example (a b : ℝ) (ha : quantile exZ (some ⟨-10, 2⟩) 0 1 (1 / 10) = some a) (hb : quantile exZ (some ⟨-10, 2⟩) 0 1 (9 / 10) = some b) : b < a := by
  by_contra h
  have := (C132_crossing exZ_ok ⟨-10, 2⟩ 0 1 (1 / 10) (9 / 10) (by norm_num) (by norm_num) (by norm_num) (by norm_num) a b ha hb).1 (not_lt.1 h)
  norm_num at this

example : quantile exZ (some ⟨0, 2⟩) 0 (-1) (9 / 10) = none := (C132_nan exZ ⟨0, 2⟩ 0 (-1) (9 / 10)).2 (by norm_num)

/-- Variance 4 without normalisation: wrong. -/
example : quantile exZ none 0 4 (9 / 10) ≠ some (normalQ exZ 0 (Real.sqrt 4) (9 / 10)) := by
  intro h
  have := (C133_unnormalised_iff exZ_ok 0 4 (9 / 10) (by norm_num) (by norm_num) (by norm_num)).1 h
  norm_num at this

/-- Residuals 1 and 3: the loss is smallest at variance 5. -/
example (v : ℝ) (hv : 0 < v) : mlMean 2 ![1, 3] ![0, 0] 5 ≤ mlMean 2 ![1, 3] ![0, 0] v := by
  have e : (∑ i : Fin 2, ((![1, 3] : Fin 2 → ℝ) i - (![0, 0] : Fin 2 → ℝ) i) ^ 2) / ((2 : ℕ) : ℝ) = 5 := by
    rw [Fin.sum_univ_two]; norm_num
  have := (C131_second_output_is_variance 2 (by norm_num) ![1, 3] ![0, 0] (by rw [e]; norm_num) v hv).1
  rwa [e] at this

/-- Objective 3, deviation 4. -/
example : lnMeanOf (lnMu 3 4) (lnVar 3 4) = 3 ∧ lnVarOf (lnMu 3 4) (lnVar 3 4) = 16 := by
  have := C134_moments 3 4 (by norm_num)
  rw [abs_of_pos (by norm_num)] at this
  exact ⟨this.1, by rw [this.2]; norm_num⟩

example : structLogNormal exZ (-3) (softVar 0) (1 / 10) < structLogNormal exZ (-3) (softVar 0) (9 / 10) :=
  C134_monotone exZ_ok (-3) 0 _ _ (by norm_num) (by norm_num) (by norm_num) (by norm_num)

/-- A negative objective whose lowest quantiles are all above it. -/
example : -3 < structLogNormal exZ (-3) (softVar 0) (1 / 100) := by
  have := (C134_negative_objective exZ (-3) 0 (1 / 100)).2
  linarith

example : structShapes 24 1 ≠ .ok () := by rw [ne_eq, C135_structured_normalised 24 1 (by norm_num)]; norm_num
example : structShapes 1 1 = .ok () := (C135_structured_normalised 1 1 (by norm_num)).2 ⟨rfl, rfl⟩

end PyF.NNQuant
