import Verif.Ols.Lemmas

/-! Properties of the linear forecaster. -/

namespace PyF.Ols
open Spec

variable {d m : ℕ}

theorem fit_linear (S : Solver d m) (vr : Option ℝ) (rows : List (Row d m)) : fit S "linear" vr rows = .ok (S 0 (trainRows vr rows)) := rfl

theorem fit_ridge (S : Solver d m) (vr : Option ℝ) (rows : List (Row d m)) :
    fit S "ridge" vr rows = .ok (S (ridgeAlpha S (trainRows vr rows)) (trainRows vr rows)) := rfl

theorem firstBest_mem (f : ℝ → ℝ) (a : ℝ) (l : List ℝ) : firstBest f a l ∈ a :: l := by
  induction l generalizing a with
  | nil => simp [firstBest]
  | cons b bs ih =>
    simp only [firstBest]
    split
    · exact List.mem_cons_of_mem _ (ih b)
    · rcases List.mem_cons.1 (ih a) with h | h
      · rw [h]; exact List.mem_cons_self
      · exact List.mem_cons_of_mem _ (List.mem_cons_of_mem _ h)

theorem ridgeAlpha_mem (S : Solver d m) (rows : List (Row d m)) : ridgeAlpha S rows ∈ grid := by
  unfold ridgeAlpha
  split
  · next h => simp [grid, List.range_succ] at h
  · next a as h =>
    rw [h]
    exact firstBest_mem _ _ _

theorem grid_pos {α : ℝ} (h : α ∈ grid) : 0 < α := by
  obtain ⟨i, -, rfl⟩ := List.mem_map.1 h
  positivity

/-- **C264.** On the rows it was fitted on, the errors of a linear forecaster sum to zero for each target; those of kind `linear` have no correlation left with any
feature. -/
theorem C264_errors (S : Solver d m) (kind : String) (vr : Option ℝ) (rows : List (Row d m)) (c : Coef d m)
    (hS : ∀ α, penalty S kind (trainRows vr rows) = .ok α → IsBest α (trainRows vr rows) (S α (trainRows vr rows))) (h : fit S kind vr rows = .ok c) (j : Fin m) :
    ((trainRows vr rows).map (err c j)).sum = 0
      ∧ (kind = "linear" → ∀ k : Fin d, ((trainRows vr rows).map fun r : Row d m => err c j r * r.1 k).sum = 0) := by
  by_cases h1 : kind = "linear"
  · subst h1
    rw [fit_linear] at h
    obtain rfl := Except.ok.inj h
    have := normal_of_best (hS 0 rfl) j
    exact ⟨this.1, fun _ k => by rw [this.2 k, zero_mul]⟩
  · by_cases h2 : kind = "ridge"
    · subst h2
      rw [fit_ridge] at h
      obtain rfl := Except.ok.inj h
      have := normal_of_best (hS _ rfl) j
      exact ⟨this.1, fun h => absurd h h1⟩
    · simp [fit, penalty, h1, h2, Except.map] at h

/-- **C264.** Without `val_ratio` the rows of these errors are all rows, the very ones whose error quantiles are kept. -/
theorem C264_all_rows (S : Solver d m) (kind : String) (rows : List (Row d m)) (c : Coef d m) (hS : ∀ α, penalty S kind rows = .ok α → IsBest α rows (S α rows))
    (h : fit S kind none rows = .ok c) (j : Fin m) : (rows.map (err c j)).sum = 0 := (C264_errors S kind none rows c hS h j).1

/-- **C264.** With a `val_ratio` between 0 and 1 the rows fitted on are followed by the whole part of `val_ratio` times the number of rows. -/
theorem C264_split (r : ℝ) (h0 : 0 ≤ r) (h1 : r ≤ 1) (rows : List (Row d m)) :
    ∃ val, rows = trainRows (some r) rows ++ val ∧ (val.length : ℝ) ≤ rows.length * r ∧ (rows.length : ℝ) * r < val.length + 1 := by
  have hn : (0 : ℝ) ≤ rows.length * r := mul_nonneg (Nat.cast_nonneg _) h0
  have hf : (0 : ℤ) ≤ ⌊(rows.length : ℝ) * r⌋ := Int.floor_nonneg.2 hn
  have hle : (⌊(rows.length : ℝ) * r⌋).toNat ≤ rows.length := by
    have : (rows.length : ℝ) * r ≤ rows.length := mul_le_of_le_one_right (Nat.cast_nonneg _) h1
    have h2 : (⌊(rows.length : ℝ) * r⌋ : ℝ) ≤ rows.length := (Int.floor_le _).trans this
    have h3 : ⌊(rows.length : ℝ) * r⌋ ≤ (rows.length : ℤ) := by exact_mod_cast h2
    omega
  have hl : ((rows.drop (rows.length - (⌊(rows.length : ℝ) * r⌋).toNat)).length : ℝ) = (⌊(rows.length : ℝ) * r⌋ : ℝ) := by
    rw [List.length_drop, show rows.length - (rows.length - (⌊(rows.length : ℝ) * r⌋).toNat) = (⌊(rows.length : ℝ) * r⌋).toNat by omega]
    have : ((⌊(rows.length : ℝ) * r⌋).toNat : ℤ) = ⌊(rows.length : ℝ) * r⌋ := Int.toNat_of_nonneg hf
    exact_mod_cast congrArg (Int.cast : ℤ → ℝ) this
  refine ⟨rows.drop (rows.length - (⌊(rows.length : ℝ) * r⌋).toNat), (List.take_append_drop _ _).symm, ?_, ?_⟩
  · rw [hl]; exact Int.floor_le _
  · rw [hl]; exact Int.lt_floor_add_one _

/-- Any other kind is refused. -/
theorem C264_kinds (S : Solver d m) (kind : String) (vr : Option ℝ) (rows : List (Row d m)) :
    fit S kind vr rows = .error .valueError ↔ kind ≠ "linear" ∧ kind ≠ "ridge" := by
  by_cases h1 : kind = "linear"
  · subst h1; rw [fit_linear]; simp
  · by_cases h2 : kind = "ridge"
    · subst h2; rw [fit_ridge]; simp
    · simp [fit, penalty, h1, h2, Except.map]

/-- The model in other units. -/
noncomputable def conv (D e : Fin d → ℝ) (c t : Fin m → ℝ) (f : Coef d m) : Coef d m :=
  ⟨fun j k => c j * f.w j k / D k, fun j => c j * f.b j + t j - ∑ k, c j * f.w j k / D k * e k⟩

theorem pred_conv {D e : Fin d → ℝ} {c t : Fin m → ℝ} (hD : ∀ k, D k ≠ 0) (f : Coef d m) (x : Fin d → ℝ) (j : Fin m) :
    pred (conv D e c t f) (fun k => D k * x k + e k) j = c j * pred f x j + t j := by
  have h : ∑ k, c j * f.w j k / D k * (D k * x k + e k) = c j * ∑ k, f.w j k * x k + ∑ k, c j * f.w j k / D k * e k := by
    rw [Finset.mul_sum, ← Finset.sum_add_distrib]
    refine Finset.sum_congr rfl fun k _ => ?_
    have := hD k
    field_simp
  simp only [pred, conv, h]
  ring

theorem err_conv {D e : Fin d → ℝ} {c t : Fin m → ℝ} (hD : ∀ k, D k ≠ 0) (f : Coef d m) (r : Row d m) (j : Fin m) :
    err (conv D e c t f) j (units D e c t r) = c j * err f j r := by
  simp only [err, units, pred_conv hD]
  ring

/-- Normal equations in other units: any factors for the features without penalty, offsets only with one. -/
theorem normal_conv {α : ℝ} {D e : Fin d → ℝ} {c t : Fin m → ℝ} (hD : ∀ k, D k ≠ 0) (hα : α = 0 ∨ ∀ k, D k = 1) {rows : List (Row d m)} {f : Coef d m}
    (h : Normal α rows f) : Normal α (rows.map (units D e c t)) (conv D e c t f) := by
  intro j
  have h1 : ∀ rs : List (Row d m), ((rs.map (units D e c t)).map (err (conv D e c t f) j)).sum = c j * (rs.map (err f j)).sum := by
    intro rs
    induction rs with
    | nil => simp
    | cons r rs ih => simp only [List.map_cons, List.sum_cons, ih, err_conv hD]; ring
  have h2 : ∀ (k : Fin d) (rs : List (Row d m)), ((rs.map (units D e c t)).map fun r : Row d m => err (conv D e c t f) j r * r.1 k).sum
      = c j * D k * (rs.map fun r : Row d m => err f j r * r.1 k).sum + c j * e k * (rs.map (err f j)).sum := by
    intro k rs
    induction rs with
    | nil => simp
    | cons r rs ih =>
      simp only [List.map_cons, List.sum_cons, ih, err_conv hD]
      simp only [units]
      ring
  refine ⟨by rw [h1, (h j).1, mul_zero], fun k => ?_⟩
  rw [h2, (h j).1, (h j).2 k]
  rcases hα with rfl | h3
  · simp
  · simp only [conv, h3 k]
    ring

theorem indep_units {D e : Fin d → ℝ} {c t : Fin m → ℝ} (hD : ∀ k, D k ≠ 0) {rows : List (Row d m)} (hI : Indep rows) :
    Indep (rows.map (units D e c t)) := by
  intro w b h
  have := hI (fun k => w k * D k) (b + ∑ k, w k * e k) fun r hr => by
    have := h _ (List.mem_map_of_mem hr)
    simp only [units, mul_add, Finset.sum_add_distrib] at this
    have h2 : ∑ k, w k * D k * r.1 k = ∑ k, w k * (D k * r.1 k) := Finset.sum_congr rfl fun k _ => by ring
    rw [h2]
    linarith
  have hw : ∀ k, w k = 0 := fun k => by
    rcases mul_eq_zero.1 (this.2 k) with h | h
    · exact h
    · exact absurd h (hD k)
  refine ⟨?_, hw⟩
  have h3 := this.1
  rw [Finset.sum_eq_zero fun k _ => by rw [hw k, zero_mul], add_zero] at h3
  exact h3

theorem trainRows_map {d' m' : ℕ} (vr : Option ℝ) (f : Row d m → Row d' m') (rows : List (Row d m)) :
    trainRows vr (rows.map f) = (trainRows vr rows).map f := by
  cases vr with
  | none => rfl
  | some r => simp [trainRows, List.map_take]

/-- **C265.** Kind `linear`: measuring each feature and each target in other units (factors and offsets) and fitting again gives the same forecasts, in the new units of
the targets, for every row, provided that no feature is a combination of the others on the fitted rows. -/
theorem C265_units (S S' : Solver d m) (vr : Option ℝ) (rows : List (Row d m)) (D e : Fin d → ℝ) (c t : Fin m → ℝ) (hD : ∀ k, D k ≠ 0)
    (hI : Indep (trainRows vr rows)) (hS : IsBest 0 (trainRows vr rows) (S 0 (trainRows vr rows)))
    (hS' : IsBest 0 (trainRows vr (rows.map (units D e c t))) (S' 0 (trainRows vr (rows.map (units D e c t)))))
    (f f' : Coef d m) (h : fit S "linear" vr rows = .ok f) (h' : fit S' "linear" vr (rows.map (units D e c t)) = .ok f') (x : Fin d → ℝ) (j : Fin m) :
    pred f' (fun k => D k * x k + e k) j = c j * pred f x j + t j := by
  rw [fit_linear] at h h'
  obtain rfl := Except.ok.inj h
  obtain rfl := Except.ok.inj h'
  rw [trainRows_map] at hS' ⊢
  rw [normal_unique_indep (indep_units hD hI) (normal_conv hD (Or.inl rfl) (normal_of_best hS)) (normal_of_best hS'), pred_conv hD]

/-- **C265.** On the fitted rows themselves this holds for dependent features as well. -/
theorem C265_units_fitted_rows (S S' : Solver d m) (vr : Option ℝ) (rows : List (Row d m)) (D e : Fin d → ℝ) (c t : Fin m → ℝ) (hD : ∀ k, D k ≠ 0)
    (hS : IsBest 0 (trainRows vr rows) (S 0 (trainRows vr rows)))
    (hS' : IsBest 0 (trainRows vr (rows.map (units D e c t))) (S' 0 (trainRows vr (rows.map (units D e c t)))))
    (f f' : Coef d m) (h : fit S "linear" vr rows = .ok f) (h' : fit S' "linear" vr (rows.map (units D e c t)) = .ok f')
    (r : Row d m) (hr : r ∈ trainRows vr rows) (j : Fin m) : pred f' (units D e c t r).1 j = c j * pred f r.1 j + t j := by
  rw [fit_linear] at h h'
  obtain rfl := Except.ok.inj h
  obtain rfl := Except.ok.inj h'
  rw [trainRows_map] at hS' ⊢
  rw [(normal_unique le_rfl (normal_conv hD (Or.inl rfl) (normal_of_best hS)) (normal_of_best hS')).1 _ (List.mem_map_of_mem hr) j]
  exact pred_conv hD _ _ _

end PyF.Ols
