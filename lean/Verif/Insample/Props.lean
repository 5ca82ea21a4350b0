import Verif.Insample.Lemmas

/-! Properties C214, C215. -/

namespace PyF.Insample
open PyF Quantile Metrics Spec

variable {X L : Type} [DecidableEq L] {T : ℕ}

theorem scored_of_table (predict : X → Fin T → ℚ) (qv : List ℚ) (train : List (TrainRow X T)) (key : TrainRow X T → L) (isFrame : Bool)
    (f : Fin 24 → Quantile.Table T) (S : Fin 24 → Fin T → List ℚ) (hfit : fitErr predict true qv train = .ok (.byHour f))
    (hf : ∀ h j, f h j = qv.map (quantileVal (S h j))) :
    ∃ out, scored predict qv train (train.map key) isFrame = .ok out ∧ out.length = qv.length ∧
      ∀ (k : ℕ) (τ : ℚ), qv[k]? = some τ → ∃ r, out[k]? = some (τ, r) ∧ ∀ l (c : Fin T), r l c =
        ((train.filter (fun a => key a == l)).countP (fun a => decide (a.y c - predict a.x c < quantileVal (S a.hour c) τ)) : ℚ) /
          (train.filter (fun a => key a == l)).length := by
  have hpq : predictQuantiles predict (.byHour f) (train.map (fun r => (r.x, r.hour))) =
      .ok (train.map (fun r j => (f r.hour j).map (fun e => predict r.x j + e))) := by
    unfold predictQuantiles
    rw [Quantile.mapM_ok (fun (r : X × Fin 24) => rowQuantiles (.byHour f) r.2 (predict r.1)) (fun (r : X × Fin 24) j => (f r.2 j).map (fun e => predict r.1 j + e)) _ (fun a _ => rfl), List.map_map]
    rfl
  obtain ⟨out, h1, h2, h3, -⟩ := C57_reliability train.length T (train.map key) (.inl (by simp))
    (toQHat qv.length (train.map (fun r j => (f r.hour j).map (fun e => predict r.x j + e)))) rfl (targets train) qv (le_refl _) isFrame
  refine ⟨out, ?_, h2, ?_⟩
  · unfold scored
    simp only [hfit, hpq]
    exact h1
  · intro k τ hk
    obtain ⟨r, hr, -, hval⟩ := h3 k τ hk
    refine ⟨r, hr, ?_⟩
    intro l c
    rw [hval, members_map key l _ (fun a => if (decide (a.y c - predict a.x c < quantileVal (S a.hour c) τ)) = true then (1 : ℚ) else 0), avg_indicator]
    intro i a ha
    unfold pick
    rw [if_pos (by simp)]
    have ht : targets train i c = a.y c := by
      unfold targets
      simp [ha]
    have hq : (toQHat qv.length (train.map (fun r j => (f r.hour j).map (fun e => predict r.x j + e)))).val i c k = predict a.x c + quantileVal (S a.hour c) τ := by
      unfold toQHat
      simp [ha, hf, List.getD_eq_getElem?_getD, hk]
    show (if targets train i c < _ then (1 : ℚ) else 0) = _
    rw [ht, hq]
    by_cases h : a.y c < predict a.x c + quantileVal (S a.hour c) τ
    · rw [if_pos h, if_pos (by simp only [decide_eq_true_eq]; linarith)]
    · rw [if_neg h, if_neg (by simp only [decide_eq_true_eq]; linarith)]

theorem countP_errors (predict : X → Fin T → ℚ) (rows : List (TrainRow X T)) (c : Fin T) (v : ℚ) :
    rows.countP (fun a => decide (a.y c - predict a.x c < v)) = (errors predict rows c).countP (fun e => decide (e < v)) := by
  unfold errors
  rw [List.countP_map]
  rfl

/-- **C214 (pooled).** A forecaster fitted on rows in which some hour of the day is missing, scored on the same rows: the number of
targets counted as covered at level `τ` is at most `⌈τ (n - 1)⌉`, and exactly that if the errors of the target are distinct. So the
reliability never exceeds the level by `(1 - τ) / n` and, for distinct errors, is not below it by more than `τ / n`. -/
theorem C214_pooled (predict : X → Fin T → ℚ) (qv : List ℚ) (hq : ValidLevels qv) (train : List (TrainRow X T)) (hne : train ≠ [])
    (hmiss : ∃ h : Fin 24, ∀ r ∈ train, r.hour ≠ h) (isFrame : Bool) :
    ∃ out, scored predict qv train (train.map (fun _ => ())) isFrame = .ok out ∧ out.length = qv.length ∧
      ∀ (k : ℕ) (τ : ℚ), qv[k]? = some τ → ∃ r, out[k]? = some (τ, r) ∧ ∀ c : Fin T,
        r () c * train.length ≤ ⌈τ * ((train.length : ℚ) - 1)⌉ ∧ r () c < τ + (1 - τ) / train.length ∧
        ((errors predict train c).Nodup → r () c * train.length = ⌈τ * ((train.length : ℚ) - 1)⌉ ∧ τ - τ / train.length ≤ r () c) := by
  set rows := train.map (fun r => (⟨r.hour, fun j => r.y j - predict r.x j⟩ : ErrRow T)) with hrows
  obtain ⟨f, h1, h2⟩ := C06_pooled_fallback qv rows hq (by simpa [hrows] using hne) (by
    obtain ⟨h, hh⟩ := hmiss
    refine ⟨h, fun r hr => ?_⟩
    obtain ⟨a, ha, rfl⟩ := List.mem_map.1 hr
    exact hh a ha)
  have hS : ∀ h j, f h j = qv.map (quantileVal (errors predict train j)) := by
    intro h j
    rw [h2, hrows, List.map_map]
    rfl
  obtain ⟨out, e1, e2, e3⟩ := scored_of_table predict qv train (fun _ => ()) isFrame f (fun _ j => errors predict train j) h1 hS
  refine ⟨out, e1, e2, ?_⟩
  intro k τ hk
  obtain ⟨r, hr, hval⟩ := e3 k τ hk
  refine ⟨r, hr, ?_⟩
  intro c
  have hτ := hq τ (List.mem_of_getElem? hk)
  have hv := hval () c
  have hfil : train.filter (fun _ => (() : Unit) == ()) = train := by simp
  rw [hfil, countP_errors] at hv
  have hpos : (0 : ℚ) < train.length := by exact_mod_cast List.length_pos_iff.2 hne
  have hlen : (errors predict train c).length = train.length := by simp [errors]
  have hne' : errors predict train c ≠ [] := by simpa [errors] using hne
  have hle := strict_le (errors predict train c) hne' τ hτ.1 hτ.2
  rw [hlen] at hle
  have hmul : r () c * train.length = ((errors predict train c).countP (fun e => decide (e < quantileVal (errors predict train c) τ)) : ℚ) := by
    rw [hv, div_mul_cancel₀ _ hpos.ne']
  have hle' : r () c * train.length ≤ ⌈τ * ((train.length : ℚ) - 1)⌉ := by
    rw [hmul]
    exact_mod_cast hle
  refine ⟨hle', ?_, ?_⟩
  · have hc := Int.ceil_lt_add_one (τ * ((train.length : ℚ) - 1))
    have : r () c * train.length < (τ + (1 - τ) / train.length) * train.length := by
      have e : (τ + (1 - τ) / train.length) * train.length = τ * ((train.length : ℚ) - 1) + 1 := by
        field_simp
        ring
      rw [e]
      linarith
    exact lt_of_mul_lt_mul_right this hpos.le
  · intro hnd
    have hge := strict_ge (errors predict train c) hne' hnd τ hτ.1 hτ.2
    rw [hlen] at hge
    have heq : r () c * train.length = ⌈τ * ((train.length : ℚ) - 1)⌉ := by
      rw [hmul]
      exact_mod_cast le_antisymm hle hge
    refine ⟨heq, ?_⟩
    have hc := Int.le_ceil (τ * ((train.length : ℚ) - 1))
    have : (τ - τ / train.length) * train.length ≤ r () c * train.length := by
      have e : (τ - τ / train.length) * train.length = τ * ((train.length : ℚ) - 1) := by
        field_simp
      rw [e, heq]
      exact hc
    exact le_of_mul_le_mul_right this hpos

theorem hours_table (predict : X → Fin T → ℚ) (qv : List ℚ) (hq : ValidLevels qv) (train : List (TrainRow X T)) (hall : ∀ h : Fin 24, ∃ r ∈ train, r.hour = h) :
    ∃ f, fitErr predict true qv train = .ok (.byHour f) ∧ ∀ h j, f h j = qv.map (quantileVal (errors predict (atHour train h) j)) := by
  set rows := train.map (fun r => (⟨r.hour, fun j => r.y j - predict r.x j⟩ : ErrRow T)) with hrows
  obtain ⟨f, h1, h2⟩ := C06_conditional qv rows hq (by
    intro h
    obtain ⟨r, hr, hrh⟩ := hall h
    exact ⟨_, List.mem_map.2 ⟨r, hr, rfl⟩, hrh⟩)
  refine ⟨f, h1, ?_⟩
  intro h j
  rw [h2]
  congr 2
  rw [errorsAt, hrows, List.filter_map, List.map_map]
  rfl

theorem countP_hour (predict : X → Fin T → ℚ) (train : List (TrainRow X T)) (h : Fin 24) (c : Fin T) (τ : ℚ) :
    (atHour train h).countP (fun a => decide (a.y c - predict a.x c < quantileVal (errors predict (atHour train a.hour) c) τ)) =
      (errors predict (atHour train h) c).countP (fun e => decide (e < quantileVal (errors predict (atHour train h) c) τ)) := by
  rw [← countP_errors]
  apply List.countP_congr
  intro a ha
  have : a.hour = h := by simpa using (List.mem_filter.1 ha).2
  rw [this]

/-- **C214 (by hour).** With all hours of the day in the data and the reliability by hour: of the `m` rows of an hour at most
`⌈τ (m - 1)⌉` are counted as covered at level `τ`, exactly that many if the errors of the hour are distinct. -/
theorem C214_by_hour (predict : X → Fin T → ℚ) (qv : List ℚ) (hq : ValidLevels qv) (train : List (TrainRow X T)) (hall : ∀ h : Fin 24, ∃ r ∈ train, r.hour = h)
    (isFrame : Bool) :
    ∃ out, scored predict qv train (train.map (·.hour)) isFrame = .ok out ∧ out.length = qv.length ∧
      ∀ (k : ℕ) (τ : ℚ), qv[k]? = some τ → ∃ r, out[k]? = some (τ, r) ∧ ∀ (h : Fin 24) (c : Fin T),
        r h c * (atHour train h).length ≤ ⌈τ * (((atHour train h).length : ℚ) - 1)⌉ ∧
        ((errors predict (atHour train h) c).Nodup → r h c * (atHour train h).length = ⌈τ * (((atHour train h).length : ℚ) - 1)⌉) := by
  obtain ⟨f, h1, h2⟩ := hours_table predict qv hq train hall
  obtain ⟨out, e1, e2, e3⟩ := scored_of_table predict qv train (·.hour) isFrame f (fun h j => errors predict (atHour train h) j) h1 h2
  refine ⟨out, e1, e2, ?_⟩
  intro k τ hk
  obtain ⟨r, hr, hval⟩ := e3 k τ hk
  refine ⟨r, hr, ?_⟩
  intro h c
  have hτ := hq τ (List.mem_of_getElem? hk)
  have hv := hval h c
  have hne : atHour train h ≠ [] := by
    obtain ⟨a, ha, hah⟩ := hall h
    exact List.ne_nil_of_mem (List.mem_filter.2 ⟨ha, by simpa using hah⟩)
  have hpos : (0 : ℚ) < (atHour train h).length := by exact_mod_cast List.length_pos_iff.2 hne
  have hne' : errors predict (atHour train h) c ≠ [] := by simpa [errors] using hne
  have hlen : (errors predict (atHour train h) c).length = (atHour train h).length := by simp [errors]
  have hmul : r h c * (atHour train h).length = ((errors predict (atHour train h) c).countP (fun e => decide (e < quantileVal (errors predict (atHour train h) c) τ)) : ℚ) := by
    rw [hv, ← countP_hour]
    exact div_mul_cancel₀ _ hpos.ne'
  have hle := strict_le _ hne' τ hτ.1 hτ.2
  rw [hlen] at hle
  rw [hmul]
  refine ⟨by exact_mod_cast hle, ?_⟩
  intro hnd
  have hge := strict_ge _ hne' hnd τ hτ.1 hτ.2
  rw [hlen] at hge
  exact_mod_cast le_antisymm hle hge

theorem countP_split (l : List (TrainRow X T)) (p : TrainRow X T → Bool) : l.countP p = ∑ h : Fin 24, (atHour l h).countP p := by
  induction l with
  | nil => simp [atHour]
  | cons a l ih =>
    have : ∀ h : Fin 24, (atHour (a :: l) h).countP p = (atHour l h).countP p + if a.hour = h then (if p a then 1 else 0) else 0 := by
      intro h
      unfold atHour
      by_cases hh : a.hour = h
      · simp [hh, List.countP_cons]
      · simp [hh]
    simp only [this, Finset.sum_add_distrib, Finset.sum_ite_eq, Finset.mem_univ, if_true]
    rw [List.countP_cons, ih]

theorem length_split (l : List (TrainRow X T)) : l.length = ∑ h : Fin 24, (atHour l h).length := by
  have := countP_split l (fun _ => true)
  simpa using this

/-- **C215.** With all hours in the data, over all `n` rows: the number counted as covered at level `τ` is at most the sum over the
hours of `⌈τ (m - 1)⌉`, exactly that if in every hour the errors are distinct. So the reliability never exceeds the level by
`24 (1 - τ) / n`, and for distinct errors is not below it by more than `24 τ / n`. At level 1 at least 24 rows are counted as not
covered. -/
theorem C215_overall (predict : X → Fin T → ℚ) (qv : List ℚ) (hq : ValidLevels qv) (train : List (TrainRow X T)) (hall : ∀ h : Fin 24, ∃ r ∈ train, r.hour = h)
    (isFrame : Bool) :
    ∃ out, scored predict qv train (train.map (fun _ => ())) isFrame = .ok out ∧ out.length = qv.length ∧
      ∀ (k : ℕ) (τ : ℚ), qv[k]? = some τ → ∃ r, out[k]? = some (τ, r) ∧ ∀ c : Fin T,
        r () c * train.length ≤ ∑ h : Fin 24, (⌈τ * (((atHour train h).length : ℚ) - 1)⌉ : ℚ) ∧
        r () c < τ + 24 * (1 - τ) / train.length ∧
        (τ = 1 → r () c * train.length ≤ train.length - 24) ∧
        ((∀ h, (errors predict (atHour train h) c).Nodup) →
          r () c * train.length = ∑ h : Fin 24, (⌈τ * (((atHour train h).length : ℚ) - 1)⌉ : ℚ) ∧ τ - 24 * τ / train.length ≤ r () c) := by
  obtain ⟨f, h1, h2⟩ := hours_table predict qv hq train hall
  obtain ⟨out, e1, e2, e3⟩ := scored_of_table predict qv train (fun _ => ()) isFrame f (fun h j => errors predict (atHour train h) j) h1 h2
  refine ⟨out, e1, e2, ?_⟩
  intro k τ hk
  obtain ⟨r, hr, hval⟩ := e3 k τ hk
  refine ⟨r, hr, ?_⟩
  intro c
  have hτ := hq τ (List.mem_of_getElem? hk)
  have hv := hval () c
  have hfil : train.filter (fun _ => (() : Unit) == ()) = train := by simp
  rw [hfil] at hv
  have hne : train ≠ [] := by
    obtain ⟨a, ha, -⟩ := hall 0
    exact List.ne_nil_of_mem ha
  have hpos : (0 : ℚ) < train.length := by exact_mod_cast List.length_pos_iff.2 hne
  have hneh : ∀ h, errors predict (atHour train h) c ≠ [] := by
    intro h
    obtain ⟨a, ha, hah⟩ := hall h
    have : atHour train h ≠ [] := List.ne_nil_of_mem (List.mem_filter.2 ⟨ha, by simpa using hah⟩)
    simpa [errors] using this
  have hlen : ∀ h, (errors predict (atHour train h) c).length = (atHour train h).length := by
    intro h
    simp [errors]
  have hmul : r () c * train.length = ∑ h : Fin 24, ((errors predict (atHour train h) c).countP (fun e => decide (e < quantileVal (errors predict (atHour train h) c) τ)) : ℚ) := by
    rw [hv, div_mul_cancel₀ _ hpos.ne', countP_split]
    simp only [countP_hour]
    push_cast
    rfl
  have hle : ∀ h : Fin 24, ((errors predict (atHour train h) c).countP (fun e => decide (e < quantileVal (errors predict (atHour train h) c) τ)) : ℚ) ≤
      (⌈τ * (((atHour train h).length : ℚ) - 1)⌉ : ℚ) := by
    intro h
    have := strict_le _ (hneh h) τ hτ.1 hτ.2
    rw [hlen] at this
    exact_mod_cast this
  have hsum : ∑ h : Fin 24, (τ * (((atHour train h).length : ℚ) - 1)) = τ * train.length - 24 * τ := by
    have hl : (train.length : ℚ) = ∑ h : Fin 24, ((atHour train h).length : ℚ) := by
      rw [length_split train]
      push_cast
      rfl
    rw [← Finset.mul_sum, Finset.sum_sub_distrib, ← hl]
    simp
    ring
  have hup : r () c * train.length ≤ ∑ h : Fin 24, (⌈τ * (((atHour train h).length : ℚ) - 1)⌉ : ℚ) := by
    rw [hmul]
    exact Finset.sum_le_sum (fun h _ => hle h)
  refine ⟨hup, ?_, ?_, ?_⟩
  · have hlt : ∑ h : Fin 24, (⌈τ * (((atHour train h).length : ℚ) - 1)⌉ : ℚ) < ∑ h : Fin 24, (τ * (((atHour train h).length : ℚ) - 1) + 1) :=
      Finset.sum_lt_sum_of_nonempty Finset.univ_nonempty (fun h _ => Int.ceil_lt_add_one _)
    rw [Finset.sum_add_distrib, hsum] at hlt
    simp only [Finset.sum_const, Finset.card_univ, Fintype.card_fin, nsmul_eq_mul, mul_one] at hlt
    push_cast at hlt
    have : r () c * train.length < (τ + 24 * (1 - τ) / train.length) * train.length := by
      have e : (τ + 24 * (1 - τ) / train.length) * train.length = τ * train.length - 24 * τ + 24 := by
        field_simp
        ring
      rw [e]
      linarith
    exact lt_of_mul_lt_mul_right this hpos.le
  · intro h1'
    subst h1'
    have : ∑ h : Fin 24, (⌈(1 : ℚ) * (((atHour train h).length : ℚ) - 1)⌉ : ℚ) = ∑ h : Fin 24, ((1 : ℚ) * (((atHour train h).length : ℚ) - 1)) := by
      apply Finset.sum_congr rfl
      intro h _
      have : (1 : ℚ) * (((atHour train h).length : ℚ) - 1) = (((atHour train h).length - 1 : ℤ) : ℚ) := by
        push_cast
        ring
      rw [this, Int.ceil_intCast]
    rw [this, hsum] at hup
    linarith
  · intro hnd
    have heq : r () c * train.length = ∑ h : Fin 24, (⌈τ * (((atHour train h).length : ℚ) - 1)⌉ : ℚ) := by
      rw [hmul]
      apply Finset.sum_congr rfl
      intro h _
      have := strict_ge _ (hneh h) (hnd h) τ hτ.1 hτ.2
      rw [hlen] at this
      exact le_antisymm (hle h) (by exact_mod_cast this)
    refine ⟨heq, ?_⟩
    have hge : ∑ h : Fin 24, (τ * (((atHour train h).length : ℚ) - 1)) ≤ ∑ h : Fin 24, (⌈τ * (((atHour train h).length : ℚ) - 1)⌉ : ℚ) :=
      Finset.sum_le_sum (fun h _ => Int.le_ceil _)
    rw [hsum] at hge
    have : (τ - 24 * τ / train.length) * train.length ≤ r () c * train.length := by
      have e : (τ - 24 * τ / train.length) * train.length = τ * train.length - 24 * τ := by
        field_simp
      rw [e, heq]
      exact hge
    exact le_of_mul_le_mul_right this hpos

/-- **C215 (one day).** With one row for each hour of the day nothing is ever counted as covered, at any level. -/
theorem C215_one_day (predict : X → Fin T → ℚ) (qv : List ℚ) (hq : ValidLevels qv) (train : List (TrainRow X T)) (hall : ∀ h : Fin 24, (atHour train h).length = 1)
    (isFrame : Bool) :
    ∃ out, scored predict qv train (train.map (fun _ => ())) isFrame = .ok out ∧ out.length = qv.length ∧
      ∀ (k : ℕ) (τ : ℚ), qv[k]? = some τ → ∃ r, out[k]? = some (τ, r) ∧ ∀ c : Fin T, r () c = 0 := by
  have hall' : ∀ h : Fin 24, ∃ r ∈ train, r.hour = h := by
    intro h
    obtain ⟨a, ha⟩ := List.length_eq_one_iff.1 (hall h)
    have : a ∈ atHour train h := by rw [ha]; simp
    exact ⟨a, (List.mem_filter.1 this).1, by simpa using (List.mem_filter.1 this).2⟩
  obtain ⟨out, e1, e2, e3⟩ := C215_overall predict qv hq train hall' isFrame
  refine ⟨out, e1, e2, ?_⟩
  intro k τ hk
  obtain ⟨r, hr, h⟩ := e3 k τ hk
  refine ⟨r, hr, ?_⟩
  intro c
  obtain ⟨-, -, -, h4⟩ := h c
  have hlen : (train.length : ℚ) = 24 := by
    rw [length_split train]
    simp [hall]
  obtain ⟨h5, -⟩ := h4 (by
    intro h'
    obtain ⟨a, ha⟩ := List.length_eq_one_iff.1 (hall h')
    rw [ha]
    simp [errors])
  rw [hlen] at h5
  simp [hall] at h5
  exact h5

end PyF.Insample
