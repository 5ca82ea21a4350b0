import Verif.Insample.Props

/-! C262: score of the predicted quantiles on the fitted rows, against every other shift of the forecasts. -/

namespace PyF.Insample
open PyF Quantile Metrics Spec

/-! ### Spec -/

/-- Mean pinball loss at level `τ` of the errors `es` if the forecasts are shifted by `w`. -/
def meanLoss (τ : ℚ) (es : List ℚ) (w : ℚ) : ℚ := (es.map (fun e => max (τ * (e - w)) ((1 - τ) * (w - e)))).sum / es.length

/-- `a` and `b` are neighbouring values of the sample, possibly the same. -/
def Neighbours (es : List ℚ) (a b : ℚ) : Prop := a ∈ es ∧ b ∈ es ∧ a ≤ b ∧ ∀ e ∈ es, e ≤ a ∨ b ≤ e

/-- The shift `v` lies between neighbours and no other shift is better by more than `max τ (1 - τ) / n` of their distance. -/
def NearlyBest (τ : ℚ) (es : List ℚ) (v : ℚ) : Prop :=
  ∃ a b, Neighbours es a b ∧ a ≤ v ∧ v ≤ b ∧ ∀ w, meanLoss τ es v ≤ meanLoss τ es w + max τ (1 - τ) * (b - a) / es.length

/-! ### Order statistics -/

theorem sorted_counts (s : List ℚ) (hs : s.Pairwise (· ≤ ·)) (j : ℕ) (hj : j < s.length) :
    s.countP (fun e => decide (e < s.getD j 0)) ≤ j ∧ j + 1 ≤ s.countP (fun e => decide (e ≤ s.getD j 0)) := by
  have hget : s.getD j 0 = s[j] := by simp [List.getD_eq_getElem?_getD, hj]
  rw [hget]
  constructor
  · have e : s.countP (fun e => decide (e < s[j])) = (s.take j).countP (fun e => decide (e < s[j])) + (s.drop j).countP (fun e => decide (e < s[j])) := by
      rw [← List.countP_append, List.take_append_drop]
    have h2 : (s.drop j).countP (fun e => decide (e < s[j])) = 0 := by
      rw [List.countP_eq_zero]
      intro e he
      obtain ⟨k, hk⟩ := List.mem_iff_getElem.1 he
      obtain ⟨hk1, hk2⟩ := hk
      rw [List.getElem_drop] at hk2
      rw [List.length_drop] at hk1
      have : s[j] ≤ e := by
        rw [← hk2]
        rcases Nat.eq_zero_or_pos k with h | h
        · subst h; simp
        · exact List.pairwise_iff_getElem.1 hs j (j + k) hj (by omega) (by omega)
      simp only [decide_eq_true_eq, not_lt]
      exact this
    have h3 : (s.take j).countP (fun e => decide (e < s[j])) ≤ (s.take j).length := List.countP_le_length
    rw [List.length_take] at h3
    omega
  · have h1 : (s.take (j + 1)).countP (fun e => decide (e ≤ s[j])) ≤ s.countP (fun e => decide (e ≤ s[j])) := (List.take_sublist _ _).countP_le
    have h2 : (s.take (j + 1)).countP (fun e => decide (e ≤ s[j])) = (s.take (j + 1)).length := by
      rw [List.countP_eq_length]
      intro e he
      obtain ⟨k, hk1, hk2⟩ := List.mem_iff_getElem.1 he
      rw [List.getElem_take] at hk2
      rw [List.length_take] at hk1
      have hk3 : k ≤ j := by omega
      have : e ≤ s[j] := by
        rw [← hk2]
        rcases Nat.lt_or_ge k j with h | h
        · exact List.pairwise_iff_getElem.1 hs k j (by omega) hj h
        · have : k = j := by omega
          subst this; exact le_refl _
      simpa using this
    rw [List.length_take] at h2
    omega

theorem subgradient_lt (al : ℚ) (ys : List ℚ) (v w : ℚ) (hvw : w ≤ v) :
    (cnt (fun y => decide (y < v)) ys - al * ys.length) * (w - v) ≤ total al ys w - total al ys v := by
  apply total_lower
  intro y
  unfold pinball above
  by_cases h : y < v
  · rw [if_pos (decide_eq_true h), if_pos (by linarith : v - y > 0)]
    split <;> nlinarith
  · rw [if_neg (by simpa using h : ¬ decide (y < v) = true), if_neg (by linarith [not_lt.1 h] : ¬ v - y > 0), if_neg (by linarith [not_lt.1 h] : ¬ w - y > 0)]
    nlinarith

theorem subgradient_le (al : ℚ) (ys : List ℚ) (v w : ℚ) (hvw : v ≤ w) :
    (cnt (fun y => decide (y ≤ v)) ys - al * ys.length) * (w - v) ≤ total al ys w - total al ys v := by
  apply total_lower
  intro y
  unfold pinball above
  by_cases h : y ≤ v
  · rw [if_pos (decide_eq_true h)]
    split <;> split <;> nlinarith
  · rw [if_neg (by simpa using h : ¬ decide (y ≤ v) = true), if_neg (by linarith [not_le.1 h] : ¬ v - y > 0)]
    split <;> nlinarith [not_le.1 h]

theorem meanLoss_eq (τ : ℚ) (es : List ℚ) (w : ℚ) : meanLoss τ es w = total τ es w / es.length := by
  unfold meanLoss total
  simp only [pinball_eq_max]

/-- `np.quantile` of a sample is nearly the best shift. -/
theorem quantileVal_nearlyBest (l : List ℚ) (hl : l ≠ []) (q : ℚ) (h0 : 0 ≤ q) (h1 : q ≤ 1) : NearlyBest q l (quantileVal l q) := by
  have hn : 0 < l.length := List.length_pos_iff.2 hl
  have hnq : (0 : ℚ) < l.length := by exact_mod_cast hn
  have hn1 : (1 : ℚ) ≤ l.length := by exact_mod_cast hn
  have hemp := quantileVal_isEmpirical hl h0 h1
  have hstrict := strict_le l hl q h0 h1
  set v := quantileVal l q with hv
  set s := l.insertionSort (· ≤ ·) with hs
  have hp : s.Perm l := List.perm_insertionSort _ _
  have hsl : s.length = l.length := hp.length_eq
  have hsort : s.Pairwise (· ≤ ·) := List.pairwise_insertionSort _ _
  set x := q * ((l.length : ℚ) - 1) with hx
  have hx0 : 0 ≤ x := mul_nonneg h0 (by linarith)
  have hxn : x ≤ (l.length : ℚ) - 1 := by
    have := mul_le_mul_of_nonneg_right h1 (by linarith : (0 : ℚ) ≤ (l.length : ℚ) - 1)
    linarith
  set lo := ⌊x⌋.toNat with hlo
  have hfl : ((lo : ℕ) : ℤ) = ⌊x⌋ := Int.toNat_of_nonneg (Int.floor_nonneg.2 hx0)
  have hflq : ((lo : ℕ) : ℚ) = (⌊x⌋ : ℚ) := by exact_mod_cast hfl
  have hlox : (lo : ℚ) ≤ x := by rw [hflq]; exact Int.floor_le x
  have hxlo : x < (lo : ℚ) + 1 := by rw [hflq]; exact Int.lt_floor_add_one x
  have hlon : lo < l.length := by
    have : (lo : ℚ) < l.length := by linarith
    exact_mod_cast this
  set hi := min (lo + 1) (s.length - 1) with hhi
  have hhin : hi < s.length := by omega
  have hlohi : lo ≤ hi := by omega
  set a := s.getD lo 0 with ha
  set b := s.getD hi 0 with hb
  have geta : a = s[lo]'(by omega) := by rw [ha, List.getD_eq_getElem?_getD, List.getElem?_eq_getElem (by omega)]; rfl
  have getb : b = s[hi]'hhin := by rw [hb, List.getD_eq_getElem?_getD, List.getElem?_eq_getElem hhin]; rfl
  have hab : a ≤ b := by
    rw [geta, getb]
    rcases Nat.lt_or_ge lo hi with h | h
    · exact List.pairwise_iff_getElem.1 hsort lo hi (by omega) hhin h
    · have : lo = hi := by omega
      simp only [this]; exact le_refl _
  have hvdef : v = a + (x - ⌊x⌋) * (b - a) := rfl
  have hfr0 : 0 ≤ x - ⌊x⌋ := by rw [← hflq]; linarith
  have hfr1 : x - ⌊x⌋ ≤ 1 := by rw [← hflq]; linarith
  have hav : a ≤ v := by rw [hvdef]; nlinarith
  have hvb : v ≤ b := by rw [hvdef]; nlinarith
  have hcount : ∀ p : ℚ → Bool, l.countP p = s.countP p := fun p => (hp.countP_eq p).symm
  have hnb : Neighbours l a b := by
    refine ⟨hp.mem_iff.1 (by rw [geta]; exact List.getElem_mem _), hp.mem_iff.1 (by rw [getb]; exact List.getElem_mem _), hab, ?_⟩
    intro e he
    obtain ⟨k, hk1, hk2⟩ := List.mem_iff_getElem.1 (hp.mem_iff.2 he)
    rcases Nat.lt_or_ge lo k with h | h
    · right
      rw [getb, ← hk2]
      rcases Nat.lt_or_ge hi k with h' | h'
      · exact List.pairwise_iff_getElem.1 hsort hi k hhin hk1 h'
      · have : hi = k := by omega
        simp only [this]; exact le_refl _
    · left
      rw [geta, ← hk2]
      rcases Nat.lt_or_ge k lo with h' | h'
      · exact List.pairwise_iff_getElem.1 hsort k lo hk1 (by omega) h'
      · have : k = lo := by omega
        simp only [this]; exact le_refl _
  have hkey : ∀ w, total q l v ≤ total q l w + max q (1 - q) * (b - a) := by
    by_cases hc : q * l.length ≤ (lo : ℚ) + 1
    · -- the lower neighbour is best
      obtain ⟨c1, c2⟩ := sorted_counts s hsort lo (by omega)
      rw [← hcount] at c1 c2
      have hmin := (total_min_iff q l a).2 ⟨by
        have : ((l.countP (fun e => decide (e < a)) : ℕ) : ℚ) ≤ lo := by exact_mod_cast c1
        unfold cnt
        have : q * l.length = x + q := by rw [hx]; ring
        linarith, by
        have : ((lo : ℕ) : ℚ) + 1 ≤ (l.countP (fun e => decide (e ≤ a)) : ℕ) := by exact_mod_cast c2
        unfold cnt
        linarith⟩
      intro w
      have hw := hmin w
      have hsub := subgradient_lt q l v a hav
      have hg : cnt (fun y => decide (y < v)) l - q * l.length ≤ 1 - q := by
        have h2 : ((l.countP (fun e => decide (e < v)) : ℕ) : ℚ) ≤ (⌈x⌉ : ℚ) := by exact_mod_cast hstrict
        have h3 := Int.ceil_lt_add_one x
        unfold cnt
        have : q * l.length = x + q := by rw [hx]; ring
        linarith
      have h4 : (cnt (fun y => decide (y < v)) l - q * l.length) * (v - a) ≤ (1 - q) * (v - a) := mul_le_mul_of_nonneg_right hg (by linarith)
      have h5 : (1 - q) * (v - a) ≤ max q (1 - q) * (b - a) := mul_le_mul (le_max_right _ _) (by linarith) (by linarith) (le_trans h0 (le_max_left _ _))
      have h6 : (cnt (fun y => decide (y < v)) l - q * l.length) * (a - v) = -((cnt (fun y => decide (y < v)) l - q * l.length) * (v - a)) := by ring
      linarith
    · -- the upper neighbour is best
      have hxq : q * l.length = x + q := by rw [hx]; ring
      have hlo2 : lo + 1 < l.length := by
        have h7 : q * l.length ≤ l.length := by
          have := mul_le_mul_of_nonneg_right h1 hnq.le
          linarith
        have : ((lo : ℕ) : ℚ) + 1 < l.length := by linarith [not_le.1 hc]
        exact_mod_cast this
      have hhi1 : hi = lo + 1 := by omega
      obtain ⟨c1, c2⟩ := sorted_counts s hsort hi hhin
      rw [← hcount] at c1 c2
      have hmin := (total_min_iff q l b).2 ⟨by
        have : ((l.countP (fun e => decide (e < b)) : ℕ) : ℚ) ≤ hi := by exact_mod_cast c1
        have h8 : ((hi : ℕ) : ℚ) = lo + 1 := by rw [hhi1]; push_cast; ring
        unfold cnt
        linarith [not_le.1 hc], by
        have : ((hi : ℕ) : ℚ) + 1 ≤ (l.countP (fun e => decide (e ≤ b)) : ℕ) := by exact_mod_cast c2
        have h8 : ((hi : ℕ) : ℚ) = lo + 1 := by rw [hhi1]; push_cast; ring
        unfold cnt
        linarith⟩
      intro w
      have hw := hmin w
      have hsub := subgradient_le q l v b hvb
      have hg : -q ≤ cnt (fun y => decide (y ≤ v)) l - q * l.length := by
        have := hemp.1
        unfold cnt
        linarith
      have h4 : -q * (b - v) ≤ (cnt (fun y => decide (y ≤ v)) l - q * l.length) * (b - v) := mul_le_mul_of_nonneg_right hg (by linarith)
      have h5 : q * (b - v) ≤ max q (1 - q) * (b - a) := mul_le_mul (le_max_left _ _) (by linarith) (by linarith) (le_trans h0 (le_max_left _ _))
      linarith
  refine ⟨a, b, hnb, hav, hvb, ?_⟩
  intro w
  rw [meanLoss_eq, meanLoss_eq, ← add_div]
  exact div_le_div_of_nonneg_right (hkey w) hnq.le

/-! ### The scores -/

variable {X L : Type} [DecidableEq L] {T : ℕ}

theorem pinballScored_of_table (predict : X → Fin T → ℚ) (qv : List ℚ) (train : List (TrainRow X T)) (key : TrainRow X T → L)
    (f : Fin 24 → Quantile.Table T) (S : Fin 24 → Fin T → List ℚ) (hfit : fitErr predict true qv train = .ok (.byHour f))
    (hf : ∀ h j, f h j = qv.map (quantileVal (S h j))) :
    ∃ out, pinballScored predict qv train (train.map key) = .ok out ∧ out.length = qv.length ∧
      ∀ (k : ℕ) (τ : ℚ), qv[k]? = some τ → ∃ s r, out[k]? = some (τ, s, r) ∧ ∀ l (c : Fin T), s.at l c =
        avg ((train.filter (fun a => key a == l)).map (fun a =>
          max (τ * (a.y c - predict a.x c - quantileVal (S a.hour c) τ)) ((1 - τ) * (quantileVal (S a.hour c) τ - (a.y c - predict a.x c))))) := by
  have hpq : predictQuantiles predict (.byHour f) (train.map (fun r => (r.x, r.hour))) =
      .ok (train.map (fun r j => (f r.hour j).map (fun e => predict r.x j + e))) := by
    unfold predictQuantiles
    rw [Quantile.mapM_ok (fun (r : X × Fin 24) => rowQuantiles (.byHour f) r.2 (predict r.1)) (fun (r : X × Fin 24) j => (f r.2 j).map (fun e => predict r.1 j + e)) _ (fun a _ => rfl), List.map_map]
    rfl
  obtain ⟨out, h1, h2, h3⟩ := C56_entries train.length T (train.map key) (.inl (by simp))
    (toQHat qv.length (train.map (fun r j => (f r.hour j).map (fun e => predict r.x j + e)))) rfl (targets train) qv (le_refl _)
  refine ⟨out, ?_, h2, ?_⟩
  · unfold pinballScored
    simp only [hfit, hpq]
    exact h1
  · intro k τ hk
    obtain ⟨s, r, hr, hval, -⟩ := h3 k τ hk
    refine ⟨s, r, hr, ?_⟩
    intro l c
    rw [hval, members_map key l _ (fun a => max (τ * (a.y c - predict a.x c - quantileVal (S a.hour c) τ)) ((1 - τ) * (quantileVal (S a.hour c) τ - (a.y c - predict a.x c))))]
    intro i a ha
    unfold pick
    rw [if_pos (by simp)]
    have ht : targets train i c = a.y c := by
      unfold targets
      simp [ha]
    have hq : (toQHat qv.length (train.map (fun r j => (f r.hour j).map (fun e => predict r.x j + e)))).val i c k = predict a.x c + quantileVal (S a.hour c) τ := by
      unfold toQHat
      simp [ha, hf, List.getD_eq_getElem?_getD, hk]
    show max (τ * (targets train i c - _)) ((1 - τ) * (_ - targets train i c)) = _
    rw [ht, hq]
    congr 2 <;> ring

/-- The score of the rows is the mean loss of their errors. -/
theorem avg_meanLoss (predict : X → Fin T → ℚ) (rows : List (TrainRow X T)) (c : Fin T) (τ v : ℚ) :
    avg (rows.map (fun a => max (τ * (a.y c - predict a.x c - v)) ((1 - τ) * (v - (a.y c - predict a.x c))))) = meanLoss τ (errors predict rows c) v := by
  unfold avg meanLoss errors
  simp [Function.comp_def]

/-- **C262 (pooled).** A forecaster fitted on rows in which some hour of the day is missing, scored with `quantile_scores` on the same
rows: the score at level `τ` is that of the forecasts shifted by a value between two neighbouring errors, and no other common
shift of the forecasts scores better by more than `max τ (1 - τ) / n` of the distance of the two. -/
theorem C262_pooled (predict : X → Fin T → ℚ) (qv : List ℚ) (hq : ValidLevels qv) (train : List (TrainRow X T)) (hne : train ≠ [])
    (hmiss : ∃ h : Fin 24, ∀ r ∈ train, r.hour ≠ h) :
    ∃ out, pinballScored predict qv train (train.map (fun _ => ())) = .ok out ∧ out.length = qv.length ∧
      ∀ (k : ℕ) (τ : ℚ), qv[k]? = some τ → ∃ s r, out[k]? = some (τ, s, r) ∧ ∀ c : Fin T,
        ∃ v, s.at () c = meanLoss τ (errors predict train c) v ∧ NearlyBest τ (errors predict train c) v := by
  set rows := train.map (fun r => (⟨r.hour, fun j => r.y j - predict r.x j⟩ : ErrRow T)) with hrows
  obtain ⟨f, h1, h2⟩ := C06_pooled_fallback qv rows hq (by simpa [hrows] using hne) (by
    obtain ⟨h, hh⟩ := hmiss
    refine ⟨h, fun r hr => ?_⟩
    obtain ⟨a, ha, rfl⟩ := List.mem_map.1 hr
    exact hh a ha)
  have hS : ∀ h j, f h j = qv.map (quantileVal (errors predict train j)) := by
    intro h j
    rw [h2, hrows, List.map_map]
    rfl
  obtain ⟨out, e1, e2, e3⟩ := pinballScored_of_table predict qv train (fun _ => ()) f (fun _ j => errors predict train j) h1 hS
  refine ⟨out, e1, e2, ?_⟩
  intro k τ hk
  obtain ⟨s, r, hr, hval⟩ := e3 k τ hk
  refine ⟨s, r, hr, ?_⟩
  intro c
  have hτ := hq τ (List.mem_of_getElem? hk)
  have hv := hval () c
  have hfil : train.filter (fun _ => (() : Unit) == ()) = train := by simp
  rw [hfil, avg_meanLoss] at hv
  exact ⟨_, hv, quantileVal_nearlyBest _ (by simpa [errors] using hne) τ hτ.1 hτ.2⟩

/-- **C262 (by hour).** With all hours of the day in the data and the scores by hour, the same holds within every hour. -/
theorem C262_by_hour (predict : X → Fin T → ℚ) (qv : List ℚ) (hq : ValidLevels qv) (train : List (TrainRow X T)) (hall : ∀ h : Fin 24, ∃ r ∈ train, r.hour = h) :
    ∃ out, pinballScored predict qv train (train.map (·.hour)) = .ok out ∧ out.length = qv.length ∧
      ∀ (k : ℕ) (τ : ℚ), qv[k]? = some τ → ∃ s r, out[k]? = some (τ, s, r) ∧ ∀ (h : Fin 24) (c : Fin T),
        ∃ v, s.at h c = meanLoss τ (errors predict (atHour train h) c) v ∧ NearlyBest τ (errors predict (atHour train h) c) v := by
  obtain ⟨f, h1, h2⟩ := hours_table predict qv hq train hall
  obtain ⟨out, e1, e2, e3⟩ := pinballScored_of_table predict qv train (·.hour) f (fun h j => errors predict (atHour train h) j) h1 h2
  refine ⟨out, e1, e2, ?_⟩
  intro k τ hk
  obtain ⟨s, r, hr, hval⟩ := e3 k τ hk
  refine ⟨s, r, hr, ?_⟩
  intro h c
  have hτ := hq τ (List.mem_of_getElem? hk)
  have hv := hval h c
  have hne : atHour train h ≠ [] := by
    obtain ⟨a, ha, hah⟩ := hall h
    exact List.ne_nil_of_mem (List.mem_filter.2 ⟨ha, by simpa using hah⟩)
  have hcong : (train.filter (fun a => a.hour == h)).map (fun a =>
      max (τ * (a.y c - predict a.x c - quantileVal (errors predict (atHour train a.hour) c) τ)) ((1 - τ) * (quantileVal (errors predict (atHour train a.hour) c) τ - (a.y c - predict a.x c)))) =
      (atHour train h).map (fun a => max (τ * (a.y c - predict a.x c - quantileVal (errors predict (atHour train h) c) τ)) ((1 - τ) * (quantileVal (errors predict (atHour train h) c) τ - (a.y c - predict a.x c)))) := by
    apply List.map_congr_left
    intro a ha
    have : a.hour = h := by simpa using (List.mem_filter.1 ha).2
    rw [this]
  rw [hcong, avg_meanLoss] at hv
  exact ⟨_, hv, quantileVal_nearlyBest _ (by simpa [errors] using hne) τ hτ.1 hτ.2⟩

end PyF.Insample
