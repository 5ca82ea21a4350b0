import Verif.Metrics.Props
import Verif.Quantile.Units

/-! C289, C290: scores in other units of measure. -/

namespace PyF.Metrics
open PyF

variable {L : Type} [DecidableEq L]

/-- All values of a frame in new units. -/
def affine (a b : ℚ) (x : Table) : Table := fun i j => a * x i j + b

/-- All scores multiplied. -/
def Grouped.scale (k : ℚ) : Grouped L → Grouped L
  | .overRows f => .overRows (fun l c => k * f l c)
  | .overCols f => .overCols (fun l c => k * f l c)

omit [DecidableEq L] in
theorem Grouped.scale_at (k : ℚ) (g : Grouped L) (l : L) (c : Nat) : (g.scale k).at l c = k * g.at l c := by cases g <;> rfl

theorem avg_scale (k : ℚ) (l : List Nat) (f : Nat → ℚ) : avg (l.map (fun (i : Nat) => k * f i)) = k * avg (l.map (fun (i : Nat) => f i)) := by
  unfold avg
  rw [List.sum_map_mul_left, List.length_map, List.length_map, mul_div_assoc]

theorem avg_mono (l : List Nat) (f g : Nat → ℚ) (h : ∀ i, f i ≤ g i) : avg (l.map (fun (i : Nat) => f i)) ≤ avg (l.map (fun (i : Nat) => g i)) := by
  unfold avg
  rw [List.length_map, List.length_map]
  exact div_le_div_of_nonneg_right (List.sum_le_sum (fun i _ => h i)) (Nat.cast_nonneg _)

theorem aggregate_scale (n m : Nat) (agg : List L) (k : ℚ) (res : Table) :
    aggregate n m agg (fun i j => k * res i j) = (aggregate n m agg res).map (Grouped.scale k) := by
  unfold aggregate
  split
  · simp only [Except.map, Grouped.scale, avg_scale]
  · split
    · simp only [Except.map, Grouped.scale, avg_scale]
    · rfl

/-- Two scores of the same form, entry by entry between `1` and `k` times as large. -/
def Grown (k : ℚ) (r r' : Except PyErr (Grouped L)) : Prop :=
  (∀ e, r = .error e → r' = .error e) ∧ ∀ g, r = .ok g → ∃ g', r' = .ok g' ∧ ∀ l c, g.at l c ≤ g'.at l c ∧ g'.at l c ≤ k * g.at l c

theorem aggregate_grown (n m : Nat) (agg : List L) (k : ℚ) (res res' : Table) (h : ∀ i j, res i j ≤ res' i j ∧ res' i j ≤ k * res i j) :
    Grown k (aggregate n m agg res) (aggregate n m agg res') := by
  have h2 : ∀ (f g : Nat → ℚ), (∀ i, f i ≤ g i ∧ g i ≤ k * f i) → ∀ l : List Nat,
      avg (l.map (fun (i : Nat) => f i)) ≤ avg (l.map (fun (i : Nat) => g i)) ∧ avg (l.map (fun (i : Nat) => g i)) ≤ k * avg (l.map (fun (i : Nat) => f i)) := by
    intro f g hfg l
    refine ⟨avg_mono l f g (fun i => (hfg i).1), ?_⟩
    rw [← avg_scale]
    exact avg_mono l g (fun i => k * f i) (fun i => (hfg i).2)
  unfold aggregate
  split
  · refine ⟨fun e he => (by cases he), fun g hg => ?_⟩
    cases hg
    exact ⟨_, rfl, fun l c => h2 _ _ (fun i => h i c) _⟩
  · split
    · refine ⟨fun e he => (by cases he), fun g hg => ?_⟩
      cases hg
      exact ⟨_, rfl, fun l c => h2 _ _ (fun j => h c j) _⟩
    · exact ⟨fun e he => he, fun g hg => (by cases hg)⟩

theorem err_affine (a b : ℚ) (x t : Table) (i j : Nat) : err (affine a b x) (affine a b t) i j = a * err x t i j := by
  unfold err affine
  ring

/-- C289 (rmse): with forecasts and targets in new units the rmse is the old one times the absolute value of the factor; the offset drops out. -/
theorem C289_rmse (n m : Nat) (agg : List L) (x t : Table) (a b : ℚ) :
    (∀ e, mse n m agg x t = .error e → mse n m agg (affine a b x) (affine a b t) = .error e) ∧
    ∀ g, mse n m agg x t = .ok g → ∃ g', mse n m agg (affine a b x) (affine a b t) = .ok g' ∧ ∀ l c, root (g'.at l c) = |(a : ℝ)| * root (g.at l c) := by
  have key : mse n m agg (affine a b x) (affine a b t) = (mse n m agg x t).map (Grouped.scale (a ^ 2)) := by
    unfold mse
    rw [← aggregate_scale]
    congr 1
    funext i j
    unfold squerr
    rw [err_affine]
    ring
  rw [key]
  refine ⟨fun e he => by rw [he]; rfl, fun g hg => ⟨g.scale (a ^ 2), by rw [hg]; rfl, fun l c => ?_⟩⟩
  rw [Grouped.scale_at]
  unfold root
  push_cast
  rw [Real.sqrt_mul (by positivity), Real.sqrt_sq_eq_abs]

/-- A ratio with a constant in the denominator, all else multiplied by a factor of at least one. -/
theorem ratio_grown (a e d o : ℚ) (ha : 1 ≤ a) (hd : 0 ≤ d) (ho : 0 < o) : |e / (d + o)| ≤ |a * e / (a * d + o)| ∧ |a * e / (a * d + o)| ≤ a * |e / (d + o)| := by
  have h0 : 0 < a := by linarith
  have h1 : 0 < d + o := by linarith
  have h2 : 0 < a * d + o := by positivity
  rw [abs_div, abs_div, abs_mul, abs_of_pos h1, abs_of_pos h2, abs_of_pos h0]
  have he := abs_nonneg e
  constructor
  · rw [div_le_div_iff₀ h1 h2]
    have : 0 ≤ (a - 1) * (|e| * o) := mul_nonneg (by linarith) (mul_nonneg he ho.le)
    nlinarith
  · rw [← mul_div_assoc, div_le_div_iff₀ h2 h1]
    have : 0 ≤ (a - 1) * (a * |e| * d) := mul_nonneg (by linarith) (mul_nonneg (mul_nonneg h0.le he) hd)
    nlinarith

/-- C289 (mape): the relative error is not free of units, because of the constant in its denominator: in units in which all numbers are `a ≥ 1` times
as large it is at least as large, and at most `a` times as large. -/
theorem C289_mape (n m : Nat) (agg : List L) (x t : Table) (a : ℚ) (ha : 1 ≤ a) :
    Grown a (mape n m agg x t) (mape n m agg (affine a 0 x) (affine a 0 t)) := by
  unfold mape
  refine aggregate_grown n m agg a _ _ (fun i j => ?_)
  rw [err_affine]
  have : |affine a 0 t i j| = a * |t i j| := by
    unfold affine
    rw [add_zero, abs_mul, abs_of_pos (by linarith)]
  rw [this]
  exact ratio_grown a _ _ _ ha (abs_nonneg _) (by norm_num)

theorem rowScale_affine (m : Nat) (t : Table) (i : Nat) (a : ℚ) (ha : 0 ≤ a) : rowScale m (affine a 0 t) i = a * rowScale m t i := by
  unfold rowScale
  rw [← avg_scale]
  congr 1
  refine List.map_congr_left (fun j _ => ?_)
  unfold affine
  rw [add_zero, abs_mul, abs_of_nonneg ha]

theorem avg_nonneg' (l : List Nat) (f : Nat → ℚ) (h : ∀ i, 0 ≤ f i) : 0 ≤ avg (l.map (fun (i : Nat) => f i)) := by
  unfold avg
  exact div_nonneg (List.sum_nonneg (by simpa using fun i _ => h i)) (Nat.cast_nonneg _)

theorem quantile_nonneg (l : List ℚ) (hl : l ≠ []) (q : ℚ) (h0 : 0 ≤ q) (h1 : q ≤ 1) (h : ∀ x ∈ l, 0 ≤ x) : 0 ≤ Quantile.quantileVal l q := by
  obtain ⟨⟨x, hx, hle⟩, _⟩ := (Quantile.C05_is_empirical_quantile l q hl h0 h1).2
  exact le_trans (h x hx) hle

/-- The list whose median is used. -/
def scales (n m : Nat) (t : Table) : List ℚ := (List.range n).map (fun (i : Nat) => rowScale m t i)

theorem offset_parts (n m : Nat) (inter : Bool) (t : Table) :
    offset n m inter t = (if inter then Quantile.quantileVal (scales n m t) (1 / 2) * (1 / 100) else 0) + 1 / 1000000000000 := by
  cases inter
  · show _ = (0 : ℚ) + _
    rw [zero_add]
    rfl
  · rfl

theorem offset_affine (n m : Nat) (hn : 0 < n) (inter : Bool) (t : Table) (a : ℚ) (ha : 0 ≤ a) : ∃ d, 0 ≤ d ∧ offset n m inter t = d + 1 / 1000000000000 ∧
    offset n m inter (affine a 0 t) = a * d + 1 / 1000000000000 := by
  have hrs : ∀ i, 0 ≤ rowScale m t i := fun i => avg_nonneg' _ _ (fun j => abs_nonneg _)
  have hne : scales n m t ≠ [] := by
    unfold scales
    simp
    omega
  rw [offset_parts, offset_parts]
  cases inter with
  | false => exact ⟨0, le_rfl, rfl, by rw [mul_zero]; rfl⟩
  | true =>
    refine ⟨Quantile.quantileVal (scales n m t) (1 / 2) * (1 / 100), ?_, rfl, ?_⟩
    · refine mul_nonneg (quantile_nonneg _ hne _ (by norm_num) (by norm_num) ?_) (by norm_num)
      unfold scales
      simpa using fun i _ => hrs i
    · have : scales n m (affine a 0 t) = (scales n m t).map (fun x => a * x) := by
        unfold scales
        rw [List.map_map]
        exact List.map_congr_left (fun i _ => rowScale_affine m t i a ha)
      rw [this, Quantile.quantileVal_scale _ hne _ (by norm_num) (by norm_num) a ha, if_pos rfl, mul_assoc]

/-- C289 (nmae): the same holds for the normalised error, with and without the intermittent-demand offset. -/
theorem C289_nmae (n m : Nat) (hn : 0 < n) (agg : List L) (inter : Bool) (x t : Table) (a : ℚ) (ha : 1 ≤ a) :
    Grown a (nmae n m agg inter x t) (nmae n m agg inter (affine a 0 x) (affine a 0 t)) := by
  have h0 : 0 ≤ a := by linarith
  have hrs : ∀ i, 0 ≤ rowScale m t i := fun i => avg_nonneg' _ _ (fun j => abs_nonneg _)
  obtain ⟨d, hd, e1, e2⟩ := offset_affine n m hn inter t a h0
  unfold nmae
  refine aggregate_grown n m agg a _ _ (fun i j => ?_)
  rw [err_affine, rowScale_affine _ _ _ _ h0, e1, e2, ← add_assoc, ← add_assoc, ← mul_add]
  exact ratio_grown a _ _ _ ha (add_nonneg (hrs i) hd) (by norm_num)

/-- A quantile forecast in new units. -/
def QHat.affine (a b : ℚ) (q : QHat) : QHat := ⟨q.d1, q.d2, fun i j k => a * q.val i j k + b⟩

theorem errAlpha_affine (q : QHat) (m : Nat) (t : Table) (p : Nat) (a b : ℚ) :
    errAlpha (q.affine a b) m (affine a b t) p = (errAlpha q m t p).map (fun e i j => a * e i j) := by
  have h1 : quantileAxis (q.affine a b) m = quantileAxis q m := rfl
  have h2 : ∀ u v : ℚ, a * u + b - (a * v + b) = a * (u - v) := fun u v => by ring
  unfold errAlpha
  rw [h1]
  simp only [QHat.affine, PyF.Metrics.affine, h2]
  split
  · split
    · rfl
    · split
      · rfl
      · split <;> rfl
  · split <;> rfl

theorem above_scale (a e : ℚ) (ha : 0 < a) : above (a * e) = above e := by
  unfold above
  simp only [gt_iff_lt, mul_pos_iff_of_pos_left ha]

theorem quantileScores_affine (n m : Nat) (agg : List L) (q : QHat) (t : Table) (a b : ℚ) (ha : 0 < a) (p : Nat) (alphas : List ℚ) :
    quantileScores n m agg (q.affine a b) (affine a b t) p alphas = (quantileScores n m agg q t p alphas).map (List.map (fun x => (x.1, x.2.1.scale a, x.2.2))) := by
  induction alphas generalizing p with
  | nil => rfl
  | cons alpha rest ih =>
    unfold quantileScores
    rw [errAlpha_affine, ih]
    cases h : errAlpha q m t p with
    | error e => rfl
    | ok ea =>
      have e1 : (fun i j => pinball alpha (a * ea i j)) = fun i j => a * pinball alpha (ea i j) := by
        funext i j
        unfold pinball
        rw [above_scale _ _ ha]
        ring
      have e2 : (fun i j => above (a * ea i j)) = fun i j => above (ea i j) := by
        funext i j
        exact above_scale _ _ ha
      simp only [Except.map, e1, e2, aggregate_scale]
      cases aggregate n m agg (fun i j => pinball alpha (ea i j)) with
      | error e => rfl
      | ok s =>
        cases aggregate n m agg (fun i j => above (ea i j)) with
        | error e => rfl
        | ok r => cases quantileScores n m agg q t (p + 1) rest <;> rfl

/-- C290 (crps): with quantile forecasts and targets in new units, with a positive factor, the quantile scores and the crps are the old ones times the factor. -/
theorem C290_crps (n m : Nat) (agg : List L) (q : QHat) (t : Table) (alphas : Option (List ℚ)) (a b : ℚ) (ha : 0 < a) :
    (∀ e, crps n m agg q t alphas = .error e → crps n m agg (q.affine a b) (affine a b t) alphas = .error e) ∧
    ∀ f, crps n m agg q t alphas = .ok f → ∃ f', crps n m agg (q.affine a b) (affine a b t) alphas = .ok f' ∧ ∀ l c, f' l c = a * f l c := by
  have hl : levels (q.affine a b) m alphas = levels q m alphas := rfl
  unfold crps
  rw [hl, quantileScores_affine _ _ _ _ _ _ _ ha]
  cases quantileScores n m agg q t 0 (levels q m alphas) with
  | error e => exact ⟨fun e he => he, fun f hf => (by cases hf)⟩
  | ok out =>
    refine ⟨fun e he => (by cases he), fun f hf => ?_⟩
    cases hf
    refine ⟨_, rfl, fun l c => ?_⟩
    simp only [List.map_map, Function.comp_def, Grouped.scale_at]
    unfold avg
    rw [List.sum_map_mul_left, List.length_map, List.length_map, mul_div_assoc]

/-- C290 (reliability): the reliability does not depend on the units. -/
theorem C290_reliability (n m : Nat) (agg : List L) (isFrame : Bool) (q : QHat) (t : Table) (alphas : Option (List ℚ)) (getScore : Bool) (a b : ℚ) (ha : 0 < a) :
    reliability n m agg isFrame (q.affine a b) (affine a b t) alphas getScore = reliability n m agg isFrame q t alphas getScore := by
  have hd : (q.affine a b).d2 = q.d2 := rfl
  unfold reliability
  rw [hd, quantileScores_affine _ _ _ _ _ _ _ ha]
  split
  · rfl
  · cases quantileScores n m agg q t 0 (alphas.getD (linspace01 q.d2)) with
    | error e => rfl
    | ok out => simp only [Except.map, List.map_map, Function.comp_def]

end PyF.Metrics
