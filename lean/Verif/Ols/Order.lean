import Verif.Ols.Ridge

/-! C321: order of the features and of the rows given to the linear forecaster. -/

namespace PyF.Ols
open Spec

variable {d m : ℕ}

/-- A row with its features and targets in another order. -/
def reorder (σ : Equiv.Perm (Fin d)) (τ : Equiv.Perm (Fin m)) (r : Row d m) : Row d m := (fun k => r.1 (σ k), fun j => r.2 (τ j))

/-- A model with its weights in another order. -/
def reCoef (σ : Equiv.Perm (Fin d)) (τ : Equiv.Perm (Fin m)) (c : Coef d m) : Coef d m := ⟨fun j k => c.w (τ j) (σ k), fun j => c.b (τ j)⟩

theorem pred_reorder (σ : Equiv.Perm (Fin d)) (τ : Equiv.Perm (Fin m)) (c : Coef d m) (x : Fin d → ℝ) (j : Fin m) :
    pred (reCoef σ τ c) (fun k => x (σ k)) j = pred c x (τ j) := by
  unfold pred reCoef
  congr 1
  exact Equiv.sum_comp σ (fun k => c.w (τ j) k * x k)

theorem normal_reorder {α : ℝ} (σ : Equiv.Perm (Fin d)) (τ : Equiv.Perm (Fin m)) {rows : List (Row d m)} {c : Coef d m} (h : Normal α rows c) :
    Normal α (rows.map (reorder σ τ)) (reCoef σ τ c) := by
  intro j
  have he : ∀ r : Row d m, err (reCoef σ τ c) j (reorder σ τ r) = err c (τ j) r := by
    intro r
    unfold err
    rw [show (reorder σ τ r).1 = fun k => r.1 (σ k) from rfl, pred_reorder]
    rfl
  refine ⟨?_, fun k => ?_⟩
  · rw [List.map_map, ← (h (τ j)).1]
    congr 1
    exact List.map_congr_left fun r _ => he r
  · rw [List.map_map, show α * (reCoef σ τ c).w j k = α * c.w (τ j) (σ k) from rfl, ← (h (τ j)).2 (σ k)]
    congr 1
    exact List.map_congr_left fun r _ => by simp only [Function.comp, he]; rfl

theorem indep_reorder (σ : Equiv.Perm (Fin d)) (τ : Equiv.Perm (Fin m)) {rows : List (Row d m)} (hI : Indep rows) : Indep (rows.map (reorder σ τ)) := by
  intro w b hw
  obtain ⟨h1, h2⟩ := hI (fun k => w (σ.symm k)) b (by
    intro r hr
    have := hw _ (List.mem_map_of_mem hr)
    rw [← this]
    congr 1
    have e := Equiv.sum_comp σ (fun k => w (σ.symm k) * r.1 k)
    rw [← e]
    exact Finset.sum_congr rfl fun k _ => by simp [reorder])
  exact ⟨h1, fun k => by simpa using h2 (σ k)⟩

/-- C321 (columns, kind `linear`): with features and targets in another order the forecasts are the same, for every row, provided that no feature is a combination of
the others. -/
theorem C321_columns_linear (S S' : Solver d m) (vr : Option ℝ) (rows : List (Row d m)) (σ : Equiv.Perm (Fin d)) (τ : Equiv.Perm (Fin m)) (hI : Indep (trainRows vr rows))
    (hS : IsBest 0 (trainRows vr rows) (S 0 (trainRows vr rows)))
    (hS' : IsBest 0 (trainRows vr (rows.map (reorder σ τ))) (S' 0 (trainRows vr (rows.map (reorder σ τ)))))
    (f f' : Coef d m) (h : fit S "linear" vr rows = .ok f) (h' : fit S' "linear" vr (rows.map (reorder σ τ)) = .ok f') (x : Fin d → ℝ) (j : Fin m) :
    pred f' (fun k => x (σ k)) j = pred f x (τ j) := by
  rw [fit_linear] at h h'
  obtain rfl := Except.ok.inj h
  obtain rfl := Except.ok.inj h'
  rw [trainRows_map] at hS' ⊢
  rw [normal_unique_indep (indep_reorder σ τ hI) (normal_reorder σ τ (normal_of_best hS)) (normal_of_best hS'), pred_reorder]

theorem solver_reorder {S S' : Solver d m} (hS : ∀ α ∈ grid, ∀ rs : List (Row d m), rs ≠ [] → IsBest α rs (S α rs))
    (hS' : ∀ α ∈ grid, ∀ rs : List (Row d m), rs ≠ [] → IsBest α rs (S' α rs)) {α : ℝ} (hα : α ∈ grid) {rs : List (Row d m)}
    (hne : rs ≠ []) (σ : Equiv.Perm (Fin d)) (τ : Equiv.Perm (Fin m)) : S' α (rs.map (reorder σ τ)) = reCoef σ τ (S α rs) :=
  normal_unique_pos (grid_pos hα) (by simpa using hne) (normal_reorder σ τ (normal_of_best (hS α hα rs hne)))
    (normal_of_best (hS' α hα _ (by simpa using hne)))

theorem looErr_reorder {S S' : Solver d m} (hS : ∀ α ∈ grid, ∀ rs : List (Row d m), rs ≠ [] → IsBest α rs (S α rs))
    (hS' : ∀ α ∈ grid, ∀ rs : List (Row d m), rs ≠ [] → IsBest α rs (S' α rs)) {α : ℝ} (hα : α ∈ grid) {rs : List (Row d m)}
    (h2 : 2 ≤ rs.length) (σ : Equiv.Perm (Fin d)) (τ : Equiv.Perm (Fin m)) : looErr S' (rs.map (reorder σ τ)) α = looErr S rs α := by
  unfold looErr
  rw [List.length_map]
  congr 1
  refine List.map_congr_left fun i hi => ?_
  have hi' := List.mem_range.1 hi
  rw [List.getElem?_map, List.getElem?_eq_getElem hi', Option.map_some]
  simp only [Option.elim_some]
  rw [List.eraseIdx_map, solver_reorder hS hS' hα (by
    intro h0
    have := congrArg List.length h0
    rw [List.length_eraseIdx_of_lt hi'] at this
    simp at this
    omega)]
  rw [← Equiv.sum_comp τ (fun j => (rs[i].2 j - pred (S α (rs.eraseIdx i)) rs[i].1 j) ^ 2)]
  refine Finset.sum_congr rfl fun j _ => ?_
  rw [show (reorder σ τ rs[i]).1 = fun k => rs[i].1 (σ k) from rfl, pred_reorder]
  rfl

theorem firstBest_congr {f g : ℝ → ℝ} (a : ℝ) (l : List ℝ) (h : ∀ x ∈ a :: l, g x = f x) : firstBest g a l = firstBest f a l :=
  firstBest_scale one_pos a l (fun x hx => by rw [h x hx, one_mul])

/-- C321 (columns, kind `ridge`): with features and targets in another order the penalty and the forecasts are the same, for every row. -/
theorem C321_columns_ridge (S S' : Solver d m) (vr : Option ℝ) (rows : List (Row d m)) (σ : Equiv.Perm (Fin d)) (τ : Equiv.Perm (Fin m))
    (h2 : 2 ≤ (trainRows vr rows).length)
    (hS : ∀ α ∈ grid, ∀ rs : List (Row d m), rs ≠ [] → IsBest α rs (S α rs)) (hS' : ∀ α ∈ grid, ∀ rs : List (Row d m), rs ≠ [] → IsBest α rs (S' α rs))
    (f f' : Coef d m) (h : fit S "ridge" vr rows = .ok f) (h' : fit S' "ridge" vr (rows.map (reorder σ τ)) = .ok f') (x : Fin d → ℝ) (j : Fin m) :
    pred f' (fun k => x (σ k)) j = pred f x (τ j) := by
  rw [fit_ridge] at h h'
  obtain rfl := Except.ok.inj h
  obtain rfl := Except.ok.inj h'
  rw [trainRows_map]
  have hα : ridgeAlpha S' ((trainRows vr rows).map (reorder σ τ)) = ridgeAlpha S (trainRows vr rows) := by
    unfold ridgeAlpha
    split
    · rfl
    · next a as hg => exact firstBest_congr a as fun x hx => looErr_reorder hS hS' (hg ▸ hx) h2 σ τ
  rw [hα, solver_reorder hS hS' (ridgeAlpha_mem S _) (by intro h0; simp [h0] at h2), pred_reorder]

/-! ### Rows -/

theorem normal_perm {α : ℝ} {rows rows' : List (Row d m)} (hp : rows.Perm rows') {c : Coef d m} (h : Normal α rows c) : Normal α rows' c :=
  fun j => ⟨by rw [← (hp.map _).sum_eq]; exact (h j).1, fun k => by rw [← (hp.map _).sum_eq]; exact (h j).2 k⟩

/-- C321 (rows, kind `linear`): without `val_ratio` the order of the training rows does not matter. -/
theorem C321_rows_linear (S S' : Solver d m) (rows rows' : List (Row d m)) (hp : rows.Perm rows') (hI : Indep rows) (hS : IsBest 0 rows (S 0 rows))
    (hS' : IsBest 0 rows' (S' 0 rows')) (f f' : Coef d m) (h : fit S "linear" none rows = .ok f) (h' : fit S' "linear" none rows' = .ok f') : f' = f := by
  rw [fit_linear] at h h'
  obtain rfl := Except.ok.inj h
  obtain rfl := Except.ok.inj h'
  exact normal_unique_indep hI (normal_of_best hS) (normal_perm hp.symm (normal_of_best hS'))

/-- The sum over the rows of their errors when left out, by splitting the list at each row. -/
theorem looErr_perm {S S' : Solver d m} {α : ℝ} (hS : ∀ rs rs' : List (Row d m), rs ≠ [] → rs.Perm rs' → S' α rs' = S α rs) {rows rows' : List (Row d m)}
    (hp : rows.Perm rows') (h2 : 2 ≤ rows.length) : looErr S' rows' α = looErr S rows α := by
  classical
  -- the error of a row left out depends only on the row and on the multiset of the others
  have key : ∀ (T : Solver d m) (l : List (Row d m)), (∀ rs rs' : List (Row d m), rs ≠ [] → rs.Perm rs' → T α rs' = S α rs) → l.Perm rows →
      looErr T l α = (l.map fun r : Row d m => ∑ j, (r.2 j - pred (S α (rows.erase r)) r.1 j) ^ 2).sum := by
    intro T l hT hl
    have hll : l.length = rows.length := hl.length_eq
    unfold looErr
    have e : l.map (fun r : Row d m => ∑ j, (r.2 j - pred (S α (rows.erase r)) r.1 j) ^ 2)
        = (List.range l.length).map fun i : ℕ => (l[i]?).elim 0 fun r : Row d m => ∑ j, (r.2 j - pred (S α (rows.erase r)) r.1 j) ^ 2 := by
      apply List.ext_getElem
      · simp
      · intro i h1 h2
        simp only [List.length_map] at h1
        simp [List.getElem?_eq_getElem h1]
    rw [e]
    congr 1
    refine List.map_congr_left fun i hi => ?_
    have hi' := List.mem_range.1 hi
    rw [List.getElem?_eq_getElem hi']
    simp only [Option.elim_some]
    refine Finset.sum_congr rfl fun j _ => ?_
    have hper : (rows.erase l[i]).Perm (l.eraseIdx i) := by
      refine (hl.symm.erase _).trans ?_
      rw [← List.perm_cons l[i]]
      refine (List.perm_cons_erase (List.getElem_mem hi')).symm.trans ?_
      have : l = l.take i ++ l[i] :: l.drop (i + 1) := by simp
      rw [List.eraseIdx_eq_take_drop_succ]
      nth_rewrite 1 [this]
      exact List.perm_middle
    rw [hT _ _ (by
      intro h0
      have := hper.length_eq
      rw [h0, List.length_eraseIdx_of_lt hi'] at this
      simp at this
      omega) hper]
  rw [key S' rows' hS hp.symm, key S rows (fun rs rs' hne hq => by
    have a := hS rs' rs' (by intro h0; subst h0; exact hne hq.eq_nil) (List.Perm.refl _)
    have b := hS rs rs' hne hq
    rw [← b, a]) (List.Perm.refl _)]
  exact ((hp.map _).sum_eq).symm

/-- C321 (rows, kind `ridge`): without `val_ratio` the order of the training rows does not matter. -/
theorem C321_rows_ridge (S S' : Solver d m) (rows rows' : List (Row d m)) (hp : rows.Perm rows') (h2 : 2 ≤ rows.length)
    (hS : ∀ α ∈ grid, ∀ rs : List (Row d m), rs ≠ [] → IsBest α rs (S α rs)) (hS' : ∀ α ∈ grid, ∀ rs : List (Row d m), rs ≠ [] → IsBest α rs (S' α rs))
    (f f' : Coef d m) (h : fit S "ridge" none rows = .ok f) (h' : fit S' "ridge" none rows' = .ok f') : f' = f := by
  rw [fit_ridge] at h h'
  obtain rfl := Except.ok.inj h
  obtain rfl := Except.ok.inj h'
  have hu : ∀ α ∈ grid, ∀ rs rs' : List (Row d m), rs ≠ [] → rs.Perm rs' → S' α rs' = S α rs := by
    intro α hα rs rs' hne hq
    exact normal_unique_pos (grid_pos hα) hne (normal_of_best (hS α hα rs hne))
      (normal_perm hq.symm (normal_of_best (hS' α hα rs' (by intro h0; subst h0; exact hne hq.eq_nil))))
  have hα : ridgeAlpha S' rows' = ridgeAlpha S rows := by
    unfold ridgeAlpha
    split
    · rfl
    · next a as hg => exact firstBest_congr a as fun x hx => looErr_perm (hu x (hg ▸ hx)) hp h2
  show S' (ridgeAlpha S' rows') rows' = S (ridgeAlpha S rows) rows
  rw [hα]
  exact hu _ (ridgeAlpha_mem S _) rows rows' (by intro h0; simp [h0] at h2) hp

end PyF.Ols
