import Verif.Plots.Lemmas
import Mathlib.Tactic.Ring
import Mathlib.Tactic.NormNum

namespace PyF.Plots
open PyF

/-! ### C230: limits -/

/-- C230 (time series, trees, bars): with at least one value the limits exist and hold every value. -/
theorem C230_limits (vals : List ℚ) (h : vals ≠ []) : ∃ lo hi, limits vals = .ok (lo, hi) ∧ ∀ v ∈ vals, lo ≤ v ∧ v ≤ hi := by
  obtain ⟨lo, hi, h1, h2⟩ := np_ok h
  refine ⟨lo - |lo| * (1 / 10), hi + |hi| * (1 / 10), by unfold limits; rw [h1, h2], ?_⟩
  intro v hv
  have a1 := (npMin_spec h1).2 v hv
  have a2 := (npMax_spec h2).2 v hv
  have b1 := abs_nonneg lo
  have b2 := abs_nonneg hi
  constructor <;> linarith

/-- C230 (quantiles): the lower limit is below all quantiles of the rows considered; all of them are below the upper limit exactly if one of them is not negative. -/
theorem C230_quantile_limits (rows : List (List ℚ)) (nRows step : Nat) (h : ∃ i < nMax rows.length nRows step, ∃ r, rows[i]? = some r ∧ r ≠ []) :
    ∃ lo hi, quantLimits rows nRows step = .ok (lo, hi) ∧ (∀ i < nMax rows.length nRows step, ∀ r, rows[i]? = some r → ∀ v ∈ r, lo ≤ v) ∧
      ((∀ i < nMax rows.length nRows step, ∀ r, rows[i]? = some r → ∀ v ∈ r, v ≤ hi) ↔ ∃ i < nMax rows.length nRows step, ∃ r, rows[i]? = some r ∧ ∃ v ∈ r, 0 ≤ v) := by
  have hmem : ∀ v, v ∈ (rows.take (nMax rows.length nRows step)).flatten ↔ ∃ i < nMax rows.length nRows step, ∃ r, rows[i]? = some r ∧ v ∈ r := by
    intro v
    rw [List.mem_flatten]
    constructor
    · rintro ⟨r, hr, hv⟩
      obtain ⟨i, hi⟩ := List.mem_iff_getElem?.1 hr
      rw [List.getElem?_take] at hi
      split at hi
      · rename_i hlt
        exact ⟨i, hlt, r, hi, hv⟩
      · cases hi
    · rintro ⟨i, hi, r, hr, hv⟩
      refine ⟨r, List.mem_iff_getElem?.2 ⟨i, ?_⟩, hv⟩
      rw [List.getElem?_take, if_pos hi]
      exact hr
  have hne : (rows.take (nMax rows.length nRows step)).flatten ≠ [] := by
    obtain ⟨i, hi, r, hr, hrn⟩ := h
    obtain ⟨v, hv⟩ := List.exists_mem_of_ne_nil r hrn
    exact List.ne_nil_of_mem ((hmem v).2 ⟨i, hi, r, hr, hv⟩)
  obtain ⟨lo, hi, h1, h2⟩ := np_ok hne
  have s1 := npMin_spec h1
  have s2 := npMax_spec h2
  refine ⟨lo, hi * (105 / 100), by unfold quantLimits; rw [h1, h2], fun i hi' r hr v hv => s1.2 v ((hmem v).2 ⟨i, hi', r, hr, hv⟩), ?_, ?_⟩
  · intro hall
    obtain ⟨i, hi', r, hr, hv⟩ := (hmem hi).1 s2.1
    have := hall i hi' r hr hi hv
    exact ⟨i, hi', r, hr, hi, hv, by linarith⟩
  · rintro ⟨i, hi', r, hr, v, hv, h0⟩ j hj q hq w hw
    have e1 := s2.2 v ((hmem v).2 ⟨i, hi', r, hr, hv⟩)
    have e2 := s2.2 w ((hmem w).2 ⟨j, hj, q, hq, hw⟩)
    linarith

/-! ### C231: frames -/

/-- C231 (time series): an animation over two or more rows and at least one frame fails with an `IndexError` exactly if the row of its last frame does not exist; with the default step it shows the rows in order but never the last one. -/
theorem C231_series_frames (n frames step : Nat) (hn : 2 ≤ n) (hf : 1 ≤ frames) :
    (tsRows n frames step = .error .indexError ↔ n ≤ (min (n - 1) frames - 1) * step) ∧
    ((min (n - 1) frames - 1) * step < n → tsRows n frames step = .ok ((List.range (min (n - 1) frames)).map (· * step))) ∧
    ∃ l, tsRows n frames 1 = .ok l ∧ l = List.range (min (n - 1) frames) ∧ n - 1 ∉ l := by
  have hk : 1 ≤ min (n - 1) frames := by omega
  obtain ⟨_, r2, r3⟩ := rows_ok n (min (n - 1) frames) step
  have hgood : (min (n - 1) frames - 1) * step < n → tsRows n frames step = .ok ((List.range (min (n - 1) frames)).map (· * step)) := by
    intro hlt
    exact r2 fun i hi => lt_of_le_of_lt (Nat.mul_le_mul_right step (by omega)) hlt
  refine ⟨⟨?_, ?_⟩, hgood, ?_⟩
  · intro he
    by_contra hc
    rw [hgood (by omega)] at he
    cases he
  · intro hle
    exact r3 ⟨min (n - 1) frames - 1, by omega, hle⟩
  · obtain ⟨_, q2, _⟩ := rows_ok n (min (n - 1) frames) 1
    refine ⟨_, q2 fun i hi => by omega, by simp, ?_⟩
    simp

/-- C231 (quantiles): for every positive step the animation of quantiles succeeds; it shows every `step`-th row, all of them rows considered for the limits, and stops before the rows or the frames run out. -/
theorem C231_quantile_frames (n nRows step : Nat) (hs : 0 < step) :
    quantRows n nRows step = .ok ((List.range (min (n / step) nRows)).map (· * step)) ∧ ∀ r ∈ (List.range (min (n / step) nRows)).map (· * step), r < nMax n nRows step := by
  have hlt : ∀ i < min (n / step) nRows, i * step < n ∧ i * step < nRows * step := by
    intro i hi
    have h1 : i + 1 ≤ n / step := by omega
    have h2 : (i + 1) * step ≤ n := (Nat.le_div_iff_mul_le hs).1 h1
    have h3 : (i + 1) * step ≤ nRows * step := Nat.mul_le_mul_right step (by omega)
    rw [Nat.succ_mul] at h2 h3
    omega
  constructor
  · unfold quantRows
    rw [if_neg (by omega)]
    exact (rows_ok n (min (n / step) nRows) step).2.1 fun i hi => (hlt i hi).1
  · intro r hr
    obtain ⟨i, hi, rfl⟩ := List.mem_map.1 hr
    have := hlt i (List.mem_range.1 hi)
    unfold nMax
    omega

/-! ### C232: ticks and labels of a summary -/

theorem everyNth_spec {A : Type} (l : List A) (step : Nat) (hs : 0 < step) :
    ∃ r, everyNth l step = .ok r ∧ r.length = (l.length + step - 1) / step ∧ ∀ i < r.length, r[i]? = l[i * step]? := by
  have hlt : ∀ i < (l.length + step - 1) / step, i * step < l.length := by
    intro i hi
    have h2 : (i + 1) * step ≤ l.length + step - 1 := (Nat.le_div_iff_mul_le hs).1 (by omega)
    rw [Nat.succ_mul] at h2
    omega
  have key : ∀ k, (∀ i < k, i * step < l.length) → ((List.range k).filterMap (fun (i : Nat) => l[i * step]?)).length = k ∧
      ∀ i < k, ((List.range k).filterMap (fun (i : Nat) => l[i * step]?))[i]? = l[i * step]? := by
    intro k
    induction k with
    | zero => intro _; simp
    | succ k ih =>
      intro h
      obtain ⟨h1, h2⟩ := ih fun i hi => h i (by omega)
      have hk := h k (by omega)
      have hsome : l[k * step]? = some l[k * step] := List.getElem?_eq_getElem hk
      rw [List.range_succ, List.filterMap_append]
      have hlast : [k].filterMap (fun (i : Nat) => l[i * step]?) = [l[k * step]] := by
        simp [hsome]
      rw [hlast]
      refine ⟨by rw [List.length_append, h1]; rfl, ?_⟩
      intro i hi
      rcases Nat.lt_or_ge i k with h' | h'
      · rw [List.getElem?_append_left (by omega)]
        exact h2 i h'
      · have : i = k := by omega
        subst this
        rw [List.getElem?_append_right (by omega), h1, Nat.sub_self, hsome]
        rfl
  obtain ⟨h1, h2⟩ := key _ hlt
  refine ⟨_, ?_, h1, ?_⟩
  · unfold everyNth
    rw [if_neg (by omega)]
  · intro i hi
    exact h2 i (by omega)

/-- C232 (ticks): a summary of fewer than seven columns cannot be plotted. Otherwise, with a tick per column, between seven and thirteen evenly spaced ticks are kept, and seven (as announced) only if the number of columns is a multiple of seven. -/
theorem C232_ticks {A : Type} (ticks : List A) :
    (ticks.length < 7 → summaryTicks ticks ticks.length = .error .valueError) ∧
    (7 ≤ ticks.length → ∃ r, summaryTicks ticks ticks.length = .ok r ∧ 7 ≤ r.length ∧ r.length ≤ 13 ∧ (r.length = 7 ↔ 7 ∣ ticks.length) ∧ ∀ i < r.length, r[i]? = ticks[i * (ticks.length / 7)]?) := by
  constructor
  · intro h
    unfold summaryTicks everyNth
    rw [if_pos (by omega)]
  · intro h
    obtain ⟨r, h1, h2, h3⟩ := everyNth_spec ticks (ticks.length / 7) (by omega)
    refine ⟨r, h1, ?_, ?_, ?_, h3⟩
    all_goals rw [h2]
    all_goals generalize hs : ticks.length / 7 = s
    all_goals generalize hn : ticks.length = n at *
    all_goals have hs1 : 1 ≤ s := by omega
    all_goals have hlo : 7 * s ≤ n := by omega
    all_goals have hhi : n ≤ 7 * s + 6 := by omega
    · rw [Nat.le_div_iff_mul_le hs1]; omega
    · have : (n + s - 1) / s < 14 := by
        rw [Nat.div_lt_iff_lt_mul hs1]; omega
      omega
    · have h7 : 7 ≤ (n + s - 1) / s := by rw [Nat.le_div_iff_mul_le hs1]; omega
      have h8 : (n + s - 1) / s < 8 ↔ n + s - 1 < 8 * s := Nat.div_lt_iff_lt_mul hs1
      omega

/-- C232 (labels): the option `'mean'` labels an interval with the sum of its ends, that is with its midpoint only if the midpoint is zero. -/
theorem C232_mean_label (a b : ℚ) : unify "left" (a, b) = some a ∧ ∃ v, unify "mean" (a, b) = some v ∧ v = 2 * ((a + b) / 2) ∧ (v = (a + b) / 2 ↔ (a + b) / 2 = 0) := by
  refine ⟨rfl, a + b, rfl, by ring, ?_⟩
  constructor <;> intro h <;> linarith

/-! ### C233: two-dimensional histogram -/

theorem edges_sorted {xs qs : List ℚ} (hx : xs ≠ []) (hq : qs.Pairwise (· ≤ ·)) (h01 : ∀ q ∈ qs, 0 ≤ q ∧ q ≤ 1) : (edges xs qs).Pairwise (· < ·) := by
  refine dropRepeats_sorted ?_
  rw [List.pairwise_map]
  exact hq.imp_of_mem fun {a b} ha hb hab => PyF.Quantile.quantileVal_mono hx (h01 a ha).1 hab (h01 b hb).2

/-- C233 (cells): a cell of the table is the mean over the rows whose x and y lie in its half-open intervals between neighbouring edges. -/
theorem C233_cells (data : List Row) (hd : data ≠ []) (qs : List ℚ) (hq : qs.Pairwise (· ≤ ·)) (h01 : ∀ q ∈ qs, 0 ≤ q ∧ q ≤ 1) (i j : Nat) (a b c d : ℚ)
    (ha : (edges (data.map (·.x)) qs)[i]? = some a) (hb : (edges (data.map (·.x)) qs)[i + 1]? = some b) (hc : (edges (data.map (·.y)) qs)[j]? = some c) (he : (edges (data.map (·.y)) qs)[j + 1]? = some d) :
    let rows := data.filter (fun (r : Row) => decide (a < r.x ∧ r.x ≤ b ∧ c < r.y ∧ r.y ≤ d))
    (rows = [] → cell data qs i j = none) ∧ (rows ≠ [] → cell data qs i j = some ((rows.map (·.value)).sum / rows.length)) := by
  have sx := edges_sorted (xs := data.map (·.x)) (by simpa using hd) hq h01
  have sy := edges_sorted (xs := data.map (·.y)) (by simpa using hd) hq h01
  have hrows : cellRows data qs i j = data.filter (fun (r : Row) => decide (a < r.x ∧ r.x ≤ b ∧ c < r.y ∧ r.y ≤ d)) := by
    unfold cellRows
    refine List.filter_congr fun r _ => ?_
    rw [Bool.eq_iff_iff, Bool.and_eq_true, decide_eq_true_eq, decide_eq_true_eq, decide_eq_true_eq, cutBin_iff sx, cutBin_iff sy, ha, hb, hc, he]
    constructor
    · rintro ⟨⟨_, _, h1, h2, h3, h4⟩, _, _, h5, h6, h7, h8⟩
      cases h1; cases h2; cases h5; cases h6
      exact ⟨h3, h4, h7, h8⟩
    · rintro ⟨h3, h4, h7, h8⟩
      exact ⟨⟨_, _, rfl, rfl, h3, h4⟩, _, _, rfl, rfl, h7, h8⟩
  intro rows
  unfold cell
  rw [hrows]
  constructor
  · intro h
    change (match rows with | [] => none | rs => _) = _
    rw [h]
  · intro h
    change (match rows with | [] => none | rs => _) = _
    cases hr : rows with
    | nil => exact absurd hr h
    | cons r rs => rfl

/-- C233 (rows left out): a row is counted, in exactly one cell, if its x is above the quantile of the first level and not above that of the last one and the same holds for its y; all other rows are left out. -/
theorem C233_counted (data : List Row) (qs : List ℚ) (q0 q1 : ℚ) (hq0 : qs.head? = some q0) (hq1 : qs.getLast? = some q1) (hq : qs.Pairwise (· ≤ ·)) (h01 : ∀ q ∈ qs, 0 ≤ q ∧ q ≤ 1) (r : Row) (hr : r ∈ data) :
    ((∃ i j, r ∈ cellRows data qs i j) ↔
      (PyF.Quantile.quantileVal (data.map (·.x)) q0 < r.x ∧ r.x ≤ PyF.Quantile.quantileVal (data.map (·.x)) q1) ∧ (PyF.Quantile.quantileVal (data.map (·.y)) q0 < r.y ∧ r.y ≤ PyF.Quantile.quantileVal (data.map (·.y)) q1)) ∧
    ∀ i j i' j', r ∈ cellRows data qs i j → r ∈ cellRows data qs i' j' → i = i' ∧ j = j' := by
  have hd : data ≠ [] := List.ne_nil_of_mem hr
  have m0 : q0 ∈ qs := List.mem_of_head? hq0
  have m1 : q1 ∈ qs := List.mem_of_getLast? hq1
  have hfirst : ∀ q ∈ qs, q0 ≤ q := by
    cases qs with
    | nil => cases hq0
    | cons a l =>
      cases hq0
      intro q hq'
      rcases List.mem_cons.1 hq' with rfl | h
      · exact le_rfl
      · exact (List.pairwise_cons.1 hq).1 q h
  have hlast : ∀ q ∈ qs, q ≤ q1 := by
    obtain ⟨l, rfl⟩ : ∃ l, qs = l ++ [q1] := List.getLast?_eq_some_iff.1 hq1
    intro q hq'
    rcases List.mem_append.1 hq' with h | h
    · exact (List.pairwise_append.1 hq).2.2 q h q1 (by simp)
    · rw [List.mem_singleton.1 h]
  have hbin : ∀ (xs : List ℚ), xs ≠ [] → ∀ v, (∃ i, cutBin (edges xs qs) v = some i) ↔ PyF.Quantile.quantileVal xs q0 < v ∧ v ≤ PyF.Quantile.quantileVal xs q1 := by
    intro xs hx v
    rw [cutBin_isSome (edges_sorted hx hq h01)]
    have hm : ∀ e, e ∈ edges xs qs ↔ ∃ q ∈ qs, PyF.Quantile.quantileVal xs q = e := by
      intro e
      unfold edges
      rw [mem_dropRepeats, List.mem_map]
    constructor
    · rintro ⟨⟨a, ha, h1⟩, b, hb, h2⟩
      obtain ⟨q, hq', rfl⟩ := (hm a).1 ha
      obtain ⟨p, hp', rfl⟩ := (hm b).1 hb
      exact ⟨lt_of_le_of_lt (PyF.Quantile.quantileVal_mono hx (h01 q0 m0).1 (hfirst q hq') (h01 q hq').2) h1, h2.trans (PyF.Quantile.quantileVal_mono hx (h01 p hp').1 (hlast p hp') (h01 q1 m1).2)⟩
    · rintro ⟨h1, h2⟩
      exact ⟨⟨_, (hm _).2 ⟨q0, m0, rfl⟩, h1⟩, _, (hm _).2 ⟨q1, m1, rfl⟩, h2⟩
  have hc : ∀ i j, r ∈ cellRows data qs i j ↔ cutBin (edges (data.map (·.x)) qs) r.x = some i ∧ cutBin (edges (data.map (·.y)) qs) r.y = some j := by
    intro i j
    unfold cellRows
    rw [List.mem_filter, Bool.and_eq_true, decide_eq_true_eq, decide_eq_true_eq]
    exact ⟨fun h => h.2, fun h => ⟨hr, h⟩⟩
  constructor
  · rw [← hbin _ (by simpa using hd), ← hbin _ (by simpa using hd)]
    constructor
    · rintro ⟨i, j, h⟩
      exact ⟨⟨i, ((hc i j).1 h).1⟩, j, ((hc i j).1 h).2⟩
    · rintro ⟨⟨i, h1⟩, j, h2⟩
      exact ⟨i, j, (hc i j).2 ⟨h1, h2⟩⟩
  · intro i j i' j' h1 h2
    have a1 := (hc i j).1 h1
    have a2 := (hc i' j').1 h2
    exact ⟨Option.some.inj (a1.1.symm.trans a2.1), Option.some.inj (a1.2.symm.trans a2.2)⟩

/-- C233 (default levels): the rows with the least x or the least y are never counted. -/
theorem C233_least_left_out (data : List Row) (r : Row) (hr : r ∈ data) (hmin : (∀ r' ∈ data, r.x ≤ r'.x) ∨ ∀ r' ∈ data, r.y ≤ r'.y) : ∀ i j, r ∉ cellRows data defaultQs i j := by
  intro i j hm
  have hq : defaultQs.Pairwise (· ≤ ·) := by decide +kernel
  have h01 : ∀ q ∈ defaultQs, 0 ≤ q ∧ q ≤ 1 := by decide +kernel
  obtain ⟨⟨h1, _⟩, h2, _⟩ := (C233_counted data defaultQs (1 / 10) (9 / 10) (by decide +kernel) (by decide +kernel) hq h01 r hr).1.1 ⟨i, j, hm⟩
  have key : ∀ (xs : List ℚ) (v : ℚ), xs ≠ [] → (∀ x ∈ xs, v ≤ x) → ¬ PyF.Quantile.quantileVal xs (1 / 10) < v := by
    intro xs v hx hv hlt
    obtain ⟨lo, hlo⟩ := (PyF.Quantile.within_of_isEmpirical hx (by norm_num) (by norm_num) (PyF.Quantile.quantileVal_isEmpirical hx (by norm_num) (by norm_num : (1 / 10 : ℚ) ≤ 1))).1
    have := hv lo hlo.1
    linarith [hlo.2]
  have hd : data ≠ [] := List.ne_nil_of_mem hr
  rcases hmin with h | h
  · refine key _ _ (by simpa using hd) ?_ h1
    intro x hx
    obtain ⟨r', hr', rfl⟩ := List.mem_map.1 hx
    exact h r' hr'
  · refine key _ _ (by simpa using hd) ?_ h2
    intro x hx
    obtain ⟨r', hr', rfl⟩ := List.mem_map.1 hx
    exact h r' hr'

end PyF.Plots
