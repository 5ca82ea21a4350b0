import Verif.Ols.Props

/-! Properties of the linear forecaster of kind `ridge`. -/

namespace PyF.Ols
open Spec

variable {d m : ℕ}

theorem sum_err_flat (rows : List (Row d m)) (c : Coef d m) (j : Fin m) (h : ∀ k, c.w j k = 0) :
    (rows.map (err c j)).sum = (rows.map fun r : Row d m => r.2 j).sum - rows.length * c.b j
      ∧ ∀ k : Fin d, (rows.map fun r : Row d m => err c j r * r.1 k).sum
          = (rows.map fun r : Row d m => r.2 j * r.1 k).sum - c.b j * (rows.map fun r : Row d m => r.1 k).sum := by
  have hp : ∀ x, pred c x j = c.b j := fun x => by
    rw [pred, Finset.sum_eq_zero fun k _ => by rw [h k, zero_mul], add_zero]
  constructor
  · induction rows with
    | nil => simp
    | cons r rs ih =>
      simp only [List.map_cons, List.sum_cons, ih, List.length_cons]
      simp only [err, hp]
      push_cast
      ring
  · intro k
    induction rows with
    | nil => simp
    | cons r rs ih =>
      simp only [List.map_cons, List.sum_cons, ih]
      simp only [err, hp]
      ring

/-- A penalised model of a target has no weights iff the target is uncorrelated with all features. -/
theorem flat_iff {α : ℝ} (hα : 0 < α) {rows : List (Row d m)} (hne : rows ≠ []) {c : Coef d m} (h : Normal α rows c) (j : Fin m) :
    (∀ k, c.w j k = 0) ↔ Uncorrelated rows j := by
  have hn : (rows.length : ℝ) ≠ 0 := by
    have := List.length_pos_of_ne_nil hne
    exact_mod_cast this.ne'
  constructor
  · intro h0 k
    obtain ⟨e1, e2⟩ := sum_err_flat rows c j h0
    rw [(h j).1] at e1
    have e3 := e2 k
    rw [(h j).2 k, h0 k, mul_zero] at e3
    have e4 : (rows.map fun r : Row d m => r.2 j * r.1 k).sum = c.b j * (rows.map fun r : Row d m => r.1 k).sum := by linarith
    have e5 : (rows.map fun r : Row d m => r.2 j).sum = rows.length * c.b j := by linarith
    rw [e4, e5]
    ring
  · intro hU
    classical
    set c0 : Coef d m := ⟨fun j' k => if j' = j then 0 else c.w j' k,
      fun j' => if j' = j then (rows.map fun r : Row d m => r.2 j).sum / rows.length else c.b j'⟩ with hc0
    have hN : Normal α rows c0 := by
      intro j'
      by_cases hj : j' = j
      · subst hj
        have hw : ∀ k, c0.w j' k = 0 := fun k => by simp [hc0]
        have hb : c0.b j' = (rows.map fun r : Row d m => r.2 j').sum / rows.length := by simp [hc0]
        obtain ⟨e1, e2⟩ := sum_err_flat rows c0 j' hw
        refine ⟨?_, fun k => ?_⟩
        · rw [e1, hb]; field_simp; ring
        · rw [e2 k, hb, hw k, mul_zero]
          have := hU k
          field_simp
          linarith
      · have hp : ∀ x, pred c0 x j' = pred c x j' := fun x => by simp [pred, hc0, hj]
        have he : ∀ r, err c0 j' r = err c j' r := fun r => by simp [err, hp]
        have hw : ∀ k, c0.w j' k = c.w j' k := fun k => by simp [hc0, hj]
        have hf : err c0 j' = err c j' := funext he
        refine ⟨by rw [hf]; exact (h j').1, fun k => ?_⟩
        rw [hw k, hf]
        exact (h j').2 k
    intro k
    rw [normal_unique_pos hα hne hN h]
    simp [hc0]

theorem uncorr_rescale {s : ℝ} {rows : List (Row d m)} {j : Fin m} (h : Uncorrelated rows j) : Uncorrelated (rows.map (rescale s)) j := by
  intro k
  have h1 : ∀ rs : List (Row d m), ((rs.map (rescale s)).map fun r : Row d m => r.2 j * r.1 k).sum
      = s ^ 2 * (rs.map fun r : Row d m => r.2 j * r.1 k).sum := by
    intro rs
    induction rs with
    | nil => simp
    | cons r rs ih => simp only [List.map_cons, List.sum_cons, ih, rescale]; ring
  have h2 : ∀ rs : List (Row d m), ((rs.map (rescale s)).map fun r : Row d m => r.2 j).sum = s * (rs.map fun r : Row d m => r.2 j).sum := by
    intro rs
    induction rs with
    | nil => simp
    | cons r rs ih => simp only [List.map_cons, List.sum_cons, ih, rescale]; ring
  have h3 : ∀ rs : List (Row d m), ((rs.map (rescale s)).map fun r : Row d m => r.1 k).sum = s * (rs.map fun r : Row d m => r.1 k).sum := by
    intro rs
    induction rs with
    | nil => simp
    | cons r rs ih => simp only [List.map_cons, List.sum_cons, ih, rescale]; ring
  rw [h1, h2, h3, List.length_map]
  linear_combination s ^ 2 * h k

/-- Two penalties and one factor: forecasts of a target follow the factor iff the penalties do or the forecasts are constant. -/
theorem ridge_rescale {α α' s : ℝ} (hα : 0 < α) (hα' : 0 < α') (hs : s ≠ 0) {rows : List (Row d m)} (hne : rows ≠ []) {c c' : Coef d m}
    (h : Normal α rows c) (h' : Normal α' (rows.map (rescale s)) c') (hne2 : α' ≠ s ^ 2 * α) (j : Fin m) :
    (∀ x : Fin d → ℝ, pred c' (fun k => s * x k) j = s * pred c x j) ↔ Uncorrelated rows j := by
  classical
  constructor
  · intro hx
    have hb : c'.b j = s * c.b j := by
      have := hx fun _ => 0
      simpa [pred] using this
    have hw : ∀ k, c'.w j k = c.w j k := by
      intro k
      have := hx fun k' => if k' = k then 1 else 0
      simp [pred, hb] at this
      have h2 : s * c'.w j k = s * c.w j k := by linarith
      exact mul_left_cancel₀ hs h2
    have he : ∀ r : Row d m, err c' j (rescale s r) = s * err c j r := by
      intro r
      simp only [err, rescale, hx]
      ring
    rw [← flat_iff hα hne h j]
    intro k
    have e1 : ∀ rs : List (Row d m), ((rs.map (rescale s)).map fun r : Row d m => err c' j r * r.1 k).sum
        = s ^ 2 * (rs.map fun r : Row d m => err c j r * r.1 k).sum := by
      intro rs
      induction rs with
      | nil => simp
      | cons r rs ih =>
        simp only [List.map_cons, List.sum_cons, ih, he]
        simp only [rescale]
        ring
    have e2 := (h' j).2 k
    rw [e1, (h j).2 k, hw k] at e2
    have e3 : (α' - s ^ 2 * α) * c.w j k = 0 := by linear_combination -e2
    rcases mul_eq_zero.1 e3 with h0 | h0
    · exact absurd (sub_eq_zero.1 h0) hne2
    · exact h0
  · intro hU x
    have hne' : rows.map (rescale s) ≠ [] := by simpa using hne
    have w0 := (flat_iff hα hne h j).2 hU
    have w0' := (flat_iff hα' hne' h' j).2 (uncorr_rescale (s := s) hU)
    have hn : (rows.length : ℝ) ≠ 0 := by
      have := List.length_pos_of_ne_nil hne
      exact_mod_cast this.ne'
    have e1 := (sum_err_flat rows c j w0).1
    have e2 := (sum_err_flat (rows.map (rescale s)) c' j w0').1
    rw [(h j).1] at e1
    rw [(h' j).1, List.length_map] at e2
    have h2 : ∀ rs : List (Row d m), ((rs.map (rescale s)).map fun r : Row d m => r.2 j).sum = s * (rs.map fun r : Row d m => r.2 j).sum := by
      intro rs
      induction rs with
      | nil => simp
      | cons r rs ih => simp only [List.map_cons, List.sum_cons, ih, rescale]; ring
    rw [h2] at e2
    have hb : c'.b j = s * c.b j := by
      apply mul_left_cancel₀ hn
      linear_combination e2 - s * e1
    have p1 : pred c x j = c.b j := by rw [pred, Finset.sum_eq_zero fun k _ => by rw [w0 k, zero_mul], add_zero]
    have p2 : pred c' (fun k => s * x k) j = c'.b j := by rw [pred, Finset.sum_eq_zero fun k _ => by rw [w0' k, zero_mul], add_zero]
    rw [p1, p2, hb]

/-- No two penalties of the grid have a ratio `10 ^ (2p)` with `p` not a multiple of five. -/
theorem grid_ratio {p : ℤ} (hp : ¬ (5 : ℤ) ∣ p) {α α' : ℝ} (h : α ∈ grid) (h' : α' ∈ grid) : α' ≠ ((10 : ℝ) ^ p) ^ 2 * α := by
  obtain ⟨i, -, rfl⟩ := List.mem_map.1 h
  obtain ⟨i', -, rfl⟩ := List.mem_map.1 h'
  intro he
  have h10 : (0 : ℝ) < 10 := by norm_num
  have e1 : ((10 : ℝ) ^ p) ^ 2 = (10 : ℝ) ^ (2 * (p : ℝ)) := by
    rw [← Real.rpow_intCast, ← Real.rpow_natCast, ← Real.rpow_mul h10.le]
    congr 1
    push_cast
    ring
  rw [e1, ← Real.rpow_add h10] at he
  have e2 : (-2 + 10 / 8 * (i' : ℝ)) = 2 * (p : ℝ) + (-2 + 10 / 8 * (i : ℝ)) := by
    have := congrArg Real.log he
    rw [Real.log_rpow h10, Real.log_rpow h10] at this
    exact mul_right_cancel₀ (Real.log_pos (by norm_num : (1 : ℝ) < 10)).ne' this
  have e3 : (5 : ℝ) * ((i' : ℝ) - i) = 8 * p := by linarith
  have e4 : (5 : ℤ) * ((i' : ℤ) - i) = 8 * p := by exact_mod_cast e3
  apply hp
  omega

/-- **C266.** Kind `ridge`: measuring the signal, and with it features and targets, in units larger or smaller by a power of ten (unless a power of `10^5`) gives other
forecasts of a target, except if the target is uncorrelated with all features on the fitted rows. -/
theorem C266_ridge_units (S S' : Solver d m) (vr : Option ℝ) (rows : List (Row d m)) (p : ℤ) (hp : ¬ (5 : ℤ) ∣ p)
    (hne : trainRows vr rows ≠ []) (hS : ∀ α ∈ grid, IsBest α (trainRows vr rows) (S α (trainRows vr rows)))
    (hS' : ∀ α ∈ grid, IsBest α (trainRows vr (rows.map (rescale ((10 : ℝ) ^ p)))) (S' α (trainRows vr (rows.map (rescale ((10 : ℝ) ^ p))))))
    (f f' : Coef d m) (h : fit S "ridge" vr rows = .ok f) (h' : fit S' "ridge" vr (rows.map (rescale ((10 : ℝ) ^ p))) = .ok f') (j : Fin m) :
    (∀ x : Fin d → ℝ, pred f' (fun k => (10 : ℝ) ^ p * x k) j = (10 : ℝ) ^ p * pred f x j) ↔ Uncorrelated (trainRows vr rows) j := by
  rw [fit_ridge] at h h'
  obtain rfl := Except.ok.inj h
  obtain rfl := Except.ok.inj h'
  rw [trainRows_map] at hS' ⊢
  have m1 := ridgeAlpha_mem S (trainRows vr rows)
  have m2 := ridgeAlpha_mem S' ((trainRows vr rows).map (rescale ((10 : ℝ) ^ p)))
  exact ridge_rescale (grid_pos m1) (grid_pos m2) (by positivity) hne (normal_of_best (hS _ m1)) (normal_of_best (hS' _ m2)) (grid_ratio hp m1 m2) j

theorem firstBest_scale {f g : ℝ → ℝ} {q : ℝ} (hq : 0 < q) (a : ℝ) (l : List ℝ) (h : ∀ x ∈ a :: l, g x = q * f x) : firstBest g a l = firstBest f a l := by
  induction l generalizing a with
  | nil => rfl
  | cons b bs ih =>
    simp only [firstBest]
    rw [h a List.mem_cons_self, h b (List.mem_cons_of_mem _ List.mem_cons_self)]
    simp only [mul_lt_mul_iff_right₀ hq]
    split
    · exact ih b fun x hx => h x (List.mem_cons_of_mem _ hx)
    · exact ih a fun x hx => h x (by
        rcases List.mem_cons.1 hx with rfl | hx
        · exact List.mem_cons_self
        · exact List.mem_cons_of_mem _ (List.mem_cons_of_mem _ hx))

/-- A correct solver, fitted to rows in other units of the targets and other offsets of the features. -/
theorem solver_units {S : Solver d m} (hS : ∀ α ∈ grid, ∀ rs : List (Row d m), rs ≠ [] → IsBest α rs (S α rs)) {α : ℝ} (hα : α ∈ grid) {rs : List (Row d m)}
    (hne : rs ≠ []) (e : Fin d → ℝ) (c t : Fin m → ℝ) : S α (rs.map (units (fun _ => 1) e c t)) = conv (fun _ => 1) e c t (S α rs) :=
  normal_unique_pos (grid_pos hα) (by simpa using hne)
    (normal_conv (fun _ => one_ne_zero) (Or.inr fun _ => rfl) (normal_of_best (hS α hα rs hne)))
    (normal_of_best (hS α hα _ (by simpa using hne)))

theorem looErr_units {S : Solver d m} (hS : ∀ α ∈ grid, ∀ rs : List (Row d m), rs ≠ [] → IsBest α rs (S α rs)) {α : ℝ} (hα : α ∈ grid) {rs : List (Row d m)}
    (h2 : 2 ≤ rs.length) (e : Fin d → ℝ) (c : ℝ) (t : Fin m → ℝ) :
    looErr S (rs.map (units (fun _ => 1) e (fun _ => c) t)) α = c ^ 2 * looErr S rs α := by
  unfold looErr
  rw [← List.sum_map_mul_left, List.length_map]
  congr 1
  refine List.map_congr_left fun i hi => ?_
  have hi' := List.mem_range.1 hi
  rw [List.getElem?_map, List.getElem?_eq_getElem hi', Option.map_some]
  simp only [Option.elim_some]
  rw [List.eraseIdx_map, solver_units hS hα (by
    intro h0
    have := congrArg List.length h0
    rw [List.length_eraseIdx_of_lt hi'] at this
    simp at this
    omega), Finset.mul_sum]
  refine Finset.sum_congr rfl fun j _ => ?_
  have := err_conv (D := fun _ : Fin d => 1) (e := e) (c := fun _ : Fin m => c) (t := t) (fun _ => one_ne_zero) (S α (rs.eraseIdx i)) rs[i] j
  simp only [err] at this
  rw [this]
  ring

/-- **C267.** Kind `ridge`: another unit for the targets alone (one factor, any offsets) and other zeros of the features (degrees Celsius and Kelvin) lead to the same
penalty and to the same forecasts in the new unit, for every row. -/
theorem C267_ridge_target_units (S : Solver d m) (vr : Option ℝ) (rows : List (Row d m)) (e : Fin d → ℝ) (c : ℝ) (hc : c ≠ 0) (t : Fin m → ℝ)
    (h2 : 2 ≤ (trainRows vr rows).length) (hS : ∀ α ∈ grid, ∀ rs : List (Row d m), rs ≠ [] → IsBest α rs (S α rs)) (f f' : Coef d m)
    (h : fit S "ridge" vr rows = .ok f) (h' : fit S "ridge" vr (rows.map (units (fun _ => 1) e (fun _ => c) t)) = .ok f') :
    penalty S "ridge" (trainRows vr (rows.map (units (fun _ => 1) e (fun _ => c) t))) = penalty S "ridge" (trainRows vr rows)
      ∧ ∀ (x : Fin d → ℝ) (j : Fin m), pred f' (fun k => x k + e k) j = c * pred f x j + t j := by
  rw [fit_ridge] at h h'
  obtain rfl := Except.ok.inj h
  obtain rfl := Except.ok.inj h'
  rw [trainRows_map]
  have hα : ridgeAlpha S ((trainRows vr rows).map (units (fun _ => 1) e (fun _ => c) t)) = ridgeAlpha S (trainRows vr rows) := by
    unfold ridgeAlpha
    split
    · rfl
    · next a as hg =>
      exact firstBest_scale (by positivity : 0 < c ^ 2) a as fun x hx => looErr_units hS (hg ▸ hx) h2 e c t
  refine ⟨by simp [penalty, hα], fun x j => ?_⟩
  rw [hα, solver_units hS (ridgeAlpha_mem S _) (by intro h0; simp [h0] at h2)]
  have := pred_conv (D := fun _ : Fin d => 1) (e := e) (c := fun _ : Fin m => c) (t := t) (fun _ => one_ne_zero)
    (S (ridgeAlpha S (trainRows vr rows)) (trainRows vr rows)) x j
  simpa using this

theorem looErr_eq (S : Solver d m) (α : ℝ) (rows : List (Row d m)) : looErr S rows α = leftOutSum S α [] rows := by
  have key : ∀ (after before : List (Row d m)), leftOutSum S α before after
      = ((List.range after.length).map fun i : ℕ =>
          ((before ++ after)[before.length + i]?).elim 0 fun r : Row d m =>
            ∑ j, (r.2 j - pred (S α ((before ++ after).eraseIdx (before.length + i))) r.1 j) ^ 2).sum := by
    intro after
    induction after with
    | nil => intro before; rfl
    | cons r after ih =>
      intro before
      rw [leftOutSum, ih, List.length_cons, List.range_succ_eq_map, List.map_cons, List.sum_cons, List.map_map]
      congr 1
      · have e1 : (before ++ r :: after)[before.length + 0]? = some r := by simp
        have e2 : (before ++ r :: after).eraseIdx (before.length + 0) = before ++ after := by
          rw [Nat.add_zero, List.eraseIdx_append_of_length_le (le_refl _), Nat.sub_self]
          rfl
        rw [e1, e2]
        rfl
      · congr 1
        refine List.map_congr_left fun i _ => ?_
        have e : before ++ [r] ++ after = before ++ r :: after := by simp
        have e' : (before ++ [r]).length + i = before.length + (i + 1) := by simp; omega
        rw [e, e']
        rfl
  rw [key rows []]
  simp [looErr]

theorem firstBest_le (f : ℝ → ℝ) (a : ℝ) (l : List ℝ) : ∀ b ∈ a :: l, f (firstBest f a l) ≤ f b := by
  induction l generalizing a with
  | nil => intro b hb; simp at hb; subst hb; exact le_rfl
  | cons c cs ih =>
    intro b hb
    simp only [firstBest]
    split
    · next h =>
      rcases List.mem_cons.1 hb with rfl | hb
      · exact (ih c c List.mem_cons_self).trans h.le
      · exact ih c b hb
    · next h =>
      rcases List.mem_cons.1 hb with rfl | hb
      · exact ih b b List.mem_cons_self
      · rcases List.mem_cons.1 hb with rfl | hb
        · exact (ih a a List.mem_cons_self).trans (not_lt.1 h)
        · exact ih a b (List.mem_cons_of_mem _ hb)

/-- **C267.** The penalty of kind `ridge` is one of `10^-2, 10^-0.75, …, 10^8`, and none of them has a smaller sum of squared errors when each row is forecast by the model
fitted to all other rows. -/
theorem C267_least_error (S : Solver d m) (rows : List (Row d m)) : ∃ i : ℕ, i < 9 ∧ penalty S "ridge" rows = .ok ((10 : ℝ) ^ (-2 + 5 / 4 * (i : ℝ)))
    ∧ ∀ i' : ℕ, i' < 9 → leftOutSum S ((10 : ℝ) ^ (-2 + 5 / 4 * (i : ℝ))) [] rows ≤ leftOutSum S ((10 : ℝ) ^ (-2 + 5 / 4 * (i' : ℝ))) [] rows := by
  have h58 : (10 / 8 : ℝ) = 5 / 4 := by norm_num
  obtain ⟨i, hi, he⟩ := List.mem_map.1 (ridgeAlpha_mem S rows)
  rw [h58] at he
  refine ⟨i, List.mem_range.1 hi, by rw [he]; rfl, fun i' hi' => ?_⟩
  rw [he, ← looErr_eq, ← looErr_eq]
  have hmem : (10 : ℝ) ^ (-2 + 5 / 4 * (i' : ℝ)) ∈ grid := by
    refine List.mem_map.2 ⟨i', List.mem_range.2 hi', ?_⟩
    rw [h58]
  unfold ridgeAlpha
  split
  · next h => rw [h] at hmem; simp at hmem
  · next a as h =>
    rw [h] at hmem
    exact firstBest_le _ _ _ _ hmem

end PyF.Ols
