import Verif.Sampling.Median

/-! Property C245: lags and aggregates on a frame with missing rows. -/

namespace PyF.Sampling

open PyF Spec

theorem valueAt_cons (e : ℤ × Option ℚ) (S : Series) (τ : ℤ) : valueAt (e :: S) τ = if e.1 = τ then e.2 else valueAt S τ := by
  unfold valueAt
  rw [List.find?_cons]
  by_cases h : e.1 = τ <;> simp [h]

theorem valueAt_none (S : Series) (τ : ℤ) (h : ∀ e ∈ S, e.1 ≠ τ) : valueAt S τ = none := by
  unfold valueAt
  rw [List.find?_eq_none.2]
  · rfl
  · intro e he; simpa using h e he

theorem filterMap_update (g g' : ℕ → Option ℚ) (w i0 : ℕ) (h0 : i0 < w) (hlow : ∀ i ≤ i0, g i = none) (hlow' : ∀ i < i0, g' i = none)
    (hhigh : ∀ i, i0 < i → g' i = g i) : (List.range w).filterMap g' = (g' i0).toList ++ (List.range w).filterMap g := by
  obtain ⟨m, rfl⟩ : ∃ m, w = i0 + 1 + m := ⟨w - (i0 + 1), by omega⟩
  rw [List.range_add, List.filterMap_append, List.filterMap_append]
  have h1 : (List.range (i0 + 1)).filterMap g = [] := by
    rw [List.filterMap_eq_nil_iff]
    intro i hi
    exact hlow i (by have := List.mem_range.1 hi; omega)
  have h2 : (List.range (i0 + 1)).filterMap g' = (g' i0).toList := by
    rw [List.range_succ, List.filterMap_append, List.filterMap_eq_nil_iff.2 (fun i hi => hlow' i (List.mem_range.1 hi)), List.nil_append]
    cases h : g' i0 <;> simp [h]
  have h3 : ((List.range m).map (fun x => i0 + 1 + x)).filterMap g' = ((List.range m).map (fun x => i0 + 1 + x)).filterMap g := by
    apply List.filterMap_congr
    intro i hi
    obtain ⟨k, -, rfl⟩ := List.mem_map.1 hi
    exact hhigh _ (by omega)
  rw [h1, h2, h3, List.nil_append]

/-- The observations of rows on a grid, in order, are the observations of the grid points. -/
theorem filterMap_grid (dt : ℤ) (hdt : 0 < dt) (a : ℤ) (w : ℕ) : ∀ S : Series, Increasing S → (∀ e ∈ S, ∃ i < w, e.1 = a + (i : ℕ) * dt) →
    S.filterMap Prod.snd = (List.range w).filterMap (fun (i : ℕ) => valueAt S (a + i * dt))
  | [], _, _ => by
    have h : (List.range w).filterMap (fun (i : ℕ) => valueAt [] (a + i * dt)) = [] := by
      rw [List.filterMap_eq_nil_iff]
      intro i _
      rfl
    rw [h]
    rfl
  | e :: S, hs, hg => by
    have hs2 : S.Pairwise (fun a b => a.1 < b.1) := (List.pairwise_cons.1 hs).2
    have hlt := (List.pairwise_cons.1 hs).1
    have ih := filterMap_grid dt hdt a w S hs2 (fun x hx => hg x (List.mem_cons_of_mem _ hx))
    obtain ⟨i0, hi0, he⟩ := hg e List.mem_cons_self
    have hmono : ∀ i j : ℕ, i < j → a + (i : ℤ) * dt < a + (j : ℤ) * dt := by
      intro i j hij
      have : (i : ℤ) < j := by exact_mod_cast hij
      nlinarith
    have key := filterMap_update (fun (i : ℕ) => valueAt S (a + i * dt)) (fun (i : ℕ) => valueAt (e :: S) (a + i * dt)) w i0 hi0 (by
        intro i hi
        apply valueAt_none
        intro x hx hxe
        have h1 := hlt x hx
        rcases Nat.lt_or_ge i i0 with h2 | h2
        · have := hmono i i0 h2
          omega
        · have : i = i0 := by omega
          subst this
          omega) (by
        intro i hi
        apply valueAt_none
        intro x hx hxe
        have h2 := hmono i i0 hi
        rcases List.mem_cons.1 hx with rfl | hx
        · omega
        · have h1 := hlt x hx
          omega) (by
        intro i hi
        rw [valueAt_cons, if_neg]
        have := hmono i0 i hi
        omega)
    rw [key, ← ih, valueAt_cons, if_pos he]
    cases h : e.2 <;> simp [h]

theorem filterMap_length_lt (g : ℕ → Option ℚ) (w : ℕ) : ((List.range w).filterMap g).length < w ↔ ∃ i < w, g i = none := by
  induction w with
  | zero => simp
  | succ w ih =>
    have hle : ((List.range w).filterMap g).length ≤ w := by
      have := List.length_filterMap_le g (List.range w)
      simpa using this
    rw [List.range_succ, List.filterMap_append, List.length_append]
    cases h : g w with
    | none =>
      have : ([w].filterMap g).length = 0 := by simp [h]
      rw [this]
      exact ⟨fun _ => ⟨w, by omega, h⟩, fun _ => by omega⟩
    | some v =>
      have : ([w].filterMap g).length = 1 := by simp [h]
      rw [this]
      constructor
      · intro h1
        obtain ⟨i, hi, h2⟩ := ih.1 (by omega)
        exact ⟨i, by omega, h2⟩
      · rintro ⟨i, hi, h2⟩
        have hne : i ≠ w := by rintro rfl; rw [h] at h2; simp at h2
        have := ih.2 ⟨i, by omega, h2⟩
        omega

theorem stampAt_mem (S : Series) (t : ℕ) (ht : t < S.length) : S[t] ∈ S ∧ stampAt S t = S[t].1 := by
  refine ⟨List.getElem_mem ht, ?_⟩
  unfold stampAt
  rw [List.getD_eq_getElem _ _ ht]

theorem take_mem_iff (S : Series) (hs : Increasing S) (t : ℕ) (ht : t < S.length) (e : ℤ × Option ℚ) :
    e ∈ S.take (t + 1) ↔ e ∈ S ∧ e.1 ≤ stampAt S t := by
  rw [(stampAt_mem S t ht).2]
  constructor
  · intro h
    obtain ⟨i, hi, he⟩ := List.getElem_of_mem h
    rw [List.length_take] at hi
    rw [List.getElem_take] at he
    refine ⟨List.mem_of_mem_take h, ?_⟩
    rw [← he]
    rcases Nat.lt_or_ge i t with h1 | h1
    · exact (List.pairwise_iff_getElem.1 hs i t (by omega) ht h1).le
    · have : i = t := by omega
      subst this
      exact le_refl _
  · rintro ⟨h, hle⟩
    obtain ⟨i, hi, he⟩ := List.getElem_of_mem h
    have h1 : i ≤ t := by
      by_contra hlt
      push Not at hlt
      have := List.pairwise_iff_getElem.1 hs t i ht hi hlt
      rw [he] at this
      omega
    rw [← he, List.mem_take_iff_getElem]
    exact ⟨i, by omega, rfl⟩

theorem valueAt_filter (S : Series) (p : ℤ × Option ℚ → Bool) (τ : ℤ) (h : ∀ e ∈ S, e.1 = τ → p e = true) : valueAt (S.filter p) τ = valueAt S τ := by
  induction S with
  | nil => rfl
  | cons e S ih =>
    have ih2 := ih (fun x hx => h x (List.mem_cons_of_mem _ hx))
    by_cases hp : p e
    · rw [List.filter_cons_of_pos hp, valueAt_cons, valueAt_cons, ih2]
    · rw [List.filter_cons_of_neg hp, valueAt_cons, if_neg (fun he => hp (h e List.mem_cons_self he)), ih2]

theorem take_eq_filter (S : Series) (hs : Increasing S) (t : ℕ) (ht : t < S.length) : S.take (t + 1) = S.filter (fun e => e.1 ≤ stampAt S t) := by
  have h1 : (S.take (t + 1)).filter (fun e => e.1 ≤ stampAt S t) = S.take (t + 1) :=
    List.filter_eq_self.2 (fun e he => by simpa using ((take_mem_iff S hs t ht e).1 he).2)
  have h2 : (S.drop (t + 1)).filter (fun e => e.1 ≤ stampAt S t) = [] := by
    rw [List.filter_eq_nil_iff]
    intro e he
    obtain ⟨i, hi, hx⟩ := List.getElem_of_mem he
    rw [List.length_drop] at hi
    rw [List.getElem_drop] at hx
    have := List.pairwise_iff_getElem.1 hs t (t + 1 + i) ht (by omega) (by omega)
    rw [hx] at this
    rw [(stampAt_mem S t ht).2]
    simpa using this
  conv_rhs => rw [← List.take_append_drop (t + 1) S, List.filter_append]
  have hst : stampAt (S.take (t + 1) ++ S.drop (t + 1)) t = stampAt S t := by rw [List.take_append_drop]
  rw [hst, h1, h2, List.append_nil]

/-- **C245.** Aggregates on a frame with missing rows are right or missing: over a window of `w` steps ending at row `t` the result is the aggregation
function of the `w` values observed at the grid times of the window, and NaN as soon as one of them has no row or is itself NaN. -/
theorem C245_aggregate (S : Series) (dt : ℤ) (hdt : 0 < dt) (hs : Increasing S) (hg : OnGrid dt S) (w : ℕ) (f : List ℚ → Option ℚ) (t : ℕ)
    (ht : t < S.length) :
    rollAt S (w * dt) (aggSteps (w * dt) dt) f t =
      if ∃ i < w, valueAt S (stampAt S t - (i : ℕ) * dt) = none then none
      else f ((List.range w).filterMap (fun (i : ℕ) => valueAt S (stampAt S t - ((w : ℤ) - 1 - i) * dt))) := by
  have hsteps : aggSteps (w * dt) dt = w := by
    unfold aggSteps
    rw [Int.mul_tdiv_cancel _ hdt.ne']
    rfl
  set τ := stampAt S t with hτ
  have hwin : window S (w * dt) t = S.filter (fun e => decide (e.1 ≤ τ) && decide (τ - e.1 < w * dt)) := by
    unfold window
    rw [take_eq_filter S hs t ht, List.filter_filter]
    apply List.filter_congr
    intro e _
    rw [Bool.and_comm]
  have hobs : (window S (w * dt) t).filterMap Prod.snd = (List.range w).filterMap (fun (i : ℕ) => valueAt S (τ - ((w : ℤ) - 1 - i) * dt)) := by
    rw [hwin, filterMap_grid dt hdt (τ - ((w : ℤ) - 1) * dt) w _ (hs.filter _)]
    · apply List.filterMap_congr
      intro i hi
      have hi2 : (i : ℤ) < w := by exact_mod_cast List.mem_range.1 hi
      rw [valueAt_filter]
      · congr 1
        ring
      · intro e _ he
        have h1 : e.1 ≤ τ := by rw [he]; nlinarith
        have h2 : τ - e.1 < w * dt := by rw [he]; nlinarith
        simp [h1, h2]
    · intro e he
      rw [List.mem_filter] at he
      obtain ⟨he1, he2⟩ := he
      simp only [Bool.and_eq_true, decide_eq_true_eq] at he2
      obtain ⟨k, hk⟩ := hg e he1 S[t] (stampAt_mem S t ht).1
      rw [← (stampAt_mem S t ht).2, ← hτ] at hk
      have hk0 : 0 ≤ k := by
        by_contra hneg
        push Not at hneg
        nlinarith
      have hkw : k < w := by
        by_contra hge
        push Not at hge
        nlinarith
      refine ⟨(w - 1 - k).toNat, by omega, ?_⟩
      have : (((w - 1 - k).toNat : ℕ) : ℤ) = w - 1 - k := Int.toNat_of_nonneg (by omega)
      rw [this]
      linarith
  have hex : (∃ i < w, valueAt S (τ - (i : ℕ) * dt) = none) ↔ ∃ i < w, valueAt S (τ - ((w : ℤ) - 1 - (i : ℕ)) * dt) = none := by
    constructor
    · rintro ⟨i, hi, h⟩
      refine ⟨w - 1 - i, by omega, ?_⟩
      have : ((w - 1 - i : ℕ) : ℤ) = w - 1 - i := by omega
      rw [this]
      have h2 : (w : ℤ) - 1 - (w - 1 - i) = i := by ring
      rw [h2]
      exact h
    · rintro ⟨i, hi, h⟩
      refine ⟨w - 1 - i, by omega, ?_⟩
      have : ((w - 1 - i : ℕ) : ℤ) = w - 1 - i := by omega
      rw [this]
      exact h
  unfold rollAt
  simp only
  rw [hsteps, hobs]
  by_cases h : ∃ i < w, valueAt S (τ - (i : ℕ) * dt) = none
  · rw [if_pos h, if_pos ((filterMap_length_lt _ w).2 (hex.1 h))]
  · rw [if_neg h, if_neg (fun h2 => h (hex.2 ((filterMap_length_lt _ w).1 h2)))]

theorem valueAt_row (S : Series) (hs : Increasing S) (i : ℕ) (hi : i < S.length) : valueAt S (stampAt S i) = S[i].2 := by
  rw [(stampAt_mem S i hi).2]
  induction S generalizing i with
  | nil => simp at hi
  | cons e S ih =>
    rw [valueAt_cons]
    cases i with
    | zero => simp
    | succ i =>
      have hlt := (List.pairwise_cons.1 hs).1
      rw [if_neg]
      · exact ih (List.pairwise_cons.1 hs).2 i (by simpa using hi)
      · simp only [List.getElem_cons_succ]
        have := hlt _ (List.getElem_mem (by simpa using hi : i < S.length))
        omega

theorem stamp_step (S : Series) (dt : ℤ) (hs : Increasing S) (hg : OnGrid dt S) (i : ℕ) (hi : i + 1 < S.length) :
    dt ≤ stampAt S (i + 1) - stampAt S i := by
  rw [(stampAt_mem S i (by omega)).2, (stampAt_mem S (i + 1) hi).2]
  have h1 := List.pairwise_iff_getElem.1 hs i (i + 1) (by omega) hi (by omega)
  exact Int.le_of_dvd (by omega) (hg _ (List.getElem_mem (by omega)) _ (List.getElem_mem hi))

theorem stamp_diff (S : Series) (dt : ℤ) (hs : Increasing S) (hg : OnGrid dt S) (i k : ℕ) (hi : i + k < S.length) :
    k * dt ≤ stampAt S (i + k) - stampAt S i ∧
    (stampAt S (i + k) - stampAt S i = k * dt ↔ ∀ j < k, stampAt S (i + j + 1) - stampAt S (i + j) = dt) := by
  induction k with
  | zero => simp
  | succ k ih =>
    obtain ⟨h1, h2⟩ := ih (by omega)
    have h3 := stamp_step S dt hs hg (i + k) (by omega)
    have h4 : i + (k + 1) = i + k + 1 := by omega
    rw [h4]
    push_cast
    refine ⟨by nlinarith, ?_⟩
    constructor
    · intro h j hj
      have h5 : stampAt S (i + k) - stampAt S i = k * dt := by nlinarith
      rcases Nat.lt_or_ge j k with h6 | h6
      · exact h2.1 h5 j h6
      · have : j = k := by omega
        subst this
        nlinarith
    · intro h
      have h5 := h2.2 (fun j hj => h j (by omega))
      have h6 := h k (by omega)
      nlinarith

/-- **C245.** Lags count rows. The feature of lag `k` at row `t` is the observation at the stamp of row `t - k`, which is never later than the stated time
`k` steps before, and is that time exactly if no row is missing in between; otherwise it is older. -/
theorem C245_lag (S : Series) (dt : ℤ) (hs : Increasing S) (hg : OnGrid dt S) (t k : ℕ) (hk : k ≤ t) (ht : t < S.length) :
    shiftAt S k t = valueAt S (stampAt S (t - k)) ∧ stampAt S (t - k) ≤ stampAt S t - k * dt ∧
    (stampAt S (t - k) = stampAt S t - k * dt ↔ ∀ j < k, stampAt S (t - k + j + 1) - stampAt S (t - k + j) = dt) := by
  have hd := stamp_diff S dt hs hg (t - k) k (by omega)
  rw [Nat.sub_add_cancel hk] at hd
  refine ⟨?_, by linarith [hd.1], ?_⟩
  · unfold shiftAt
    rw [if_pos (by omega), valueAt_row S hs (t - k) (by omega)]
    have : ((t : ℤ) - k).toNat = t - k := by omega
    rw [this, List.getElem?_eq_getElem (by omega)]
    rfl
  · rw [← hd.2]
    constructor <;> intro h <;> linarith

/-- **C245.** Likewise the target `k` steps ahead is the observation at the stamp of row `t + k`: never earlier than stated, and at the stated time exactly
if no row is missing in between. -/
theorem C245_lead (S : Series) (dt : ℤ) (hs : Increasing S) (hg : OnGrid dt S) (t k : ℕ) (ht : t + k < S.length) :
    shiftAt S (-k) t = valueAt S (stampAt S (t + k)) ∧ stampAt S t + k * dt ≤ stampAt S (t + k) ∧
    (stampAt S (t + k) = stampAt S t + k * dt ↔ ∀ j < k, stampAt S (t + j + 1) - stampAt S (t + j) = dt) := by
  have hd := stamp_diff S dt hs hg t k ht
  refine ⟨?_, by linarith [hd.1], ?_⟩
  · unfold shiftAt
    rw [if_pos (by omega), valueAt_row S hs (t + k) ht]
    have : ((t : ℤ) - -k).toNat = t + k := by omega
    rw [this, List.getElem?_eq_getElem ht]
    rfl
  · rw [← hd.2]
    constructor <;> intro h <;> linarith

end PyF.Sampling
