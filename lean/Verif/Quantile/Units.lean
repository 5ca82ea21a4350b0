import Verif.Quantile.Errors

/-!
C257: quantile forecasts in other units. The point forecaster is arbitrary; if its forecasts change along with the units, so do the quantile forecasts.
-/

namespace PyF.Quantile
open PyF

theorem quantileVal_single (x q : ℚ) (h0 : 0 ≤ q) (h1 : q ≤ 1) : quantileVal [x] q = x := by
  have hw := C05_is_empirical_quantile [x] q (by simp) h0 h1
  obtain ⟨a, b⟩ := within_of_isEmpirical (by simp) h0 h1 hw.1
  obtain ⟨e, he, h⟩ := a
  obtain ⟨e', he', h'⟩ := b
  simp only [List.mem_singleton] at he he'
  subst he he'
  exact le_antisymm h' h

/-- Every level lies between two consecutive order statistics. -/
theorem level_split (n : Nat) (hn : 2 ≤ n) (q : ℚ) (h0 : 0 ≤ q) (h1 : q ≤ 1) :
    ∃ (k : Nat) (γ : ℚ), k + 1 < n ∧ 0 ≤ γ ∧ γ ≤ 1 ∧ q = ((k : ℚ) + γ) / ((n : ℚ) - 1) := by
  have hn' : (0 : ℚ) < (n : ℚ) - 1 := by
    have : (2 : ℚ) ≤ n := by exact_mod_cast hn
    linarith
  by_cases hq : q = 1
  · refine ⟨n - 2, 1, by omega, by norm_num, le_refl _, ?_⟩
    rw [hq, eq_div_iff hn'.ne', one_mul]
    have : ((n - 2 : Nat) : ℚ) = (n : ℚ) - 2 := by rw [Nat.cast_sub hn]; norm_num
    rw [this]; ring
  · have hlt : q < 1 := lt_of_le_of_ne h1 hq
    set v := q * ((n : ℚ) - 1) with hv
    have hv0 : 0 ≤ v := mul_nonneg h0 hn'.le
    have hfl : 0 ≤ ⌊v⌋ := Int.floor_nonneg.2 hv0
    have hcast : ((⌊v⌋.toNat : Nat) : ℚ) = (⌊v⌋ : ℚ) := by
      have : ((⌊v⌋.toNat : Nat) : ℤ) = ⌊v⌋ := Int.toNat_of_nonneg hfl
      exact_mod_cast this
    refine ⟨⌊v⌋.toNat, v - ⌊v⌋, ?_, by linarith [Int.floor_le v], by linarith [Int.lt_floor_add_one v], ?_⟩
    · have h3 : v < (n : ℚ) - 1 := by rw [hv]; nlinarith
      have h4 : ((⌊v⌋.toNat : Nat) : ℚ) < (n : ℚ) - 1 := by rw [hcast]; linarith [Int.floor_le v]
      have h5 : ((⌊v⌋.toNat + 1 : Nat) : ℚ) < (n : ℚ) := by push_cast; linarith
      exact_mod_cast h5
    · rw [hcast, add_sub_cancel, hv, mul_div_assoc, div_self hn'.ne', mul_one]

/-- C257: quantiles of values multiplied by a factor `k ≥ 0`. -/
theorem quantileVal_scale (l : List ℚ) (hl : l ≠ []) (q : ℚ) (h0 : 0 ≤ q) (h1 : q ≤ 1) (k : ℚ) (hk : 0 ≤ k) :
    quantileVal (l.map (k * ·)) q = k * quantileVal l q := by
  rcases Nat.lt_or_ge l.length 2 with h | h
  · obtain ⟨x, rfl⟩ : ∃ x, l = [x] := List.length_eq_one_iff.1 (by have := List.length_pos_of_ne_nil hl; omega)
    rw [List.map_singleton, quantileVal_single _ _ h0 h1, quantileVal_single _ _ h0 h1]
  · obtain ⟨m, γ, hm, g0, g1, hq⟩ := level_split l.length h q h0 h1
    set s := l.insertionSort (· ≤ ·) with hs
    have hp : s.Perm l := List.perm_insertionSort _ l
    have hlen : s.length = l.length := hp.length_eq
    have hsort : s.Pairwise (· ≤ ·) := sort_pairwise l
    have e1 := C05_linear_interpolation l s hp hsort m (by omega) γ g0 g1
    have e2 := C05_linear_interpolation (l.map (k * ·)) (s.map (k * ·)) (hp.map _)
      (List.pairwise_map.2 (hsort.imp fun hab => mul_le_mul_of_nonneg_left hab hk)) m (by rw [List.length_map]; omega) γ g0 g1
    rw [List.length_map] at e2
    rw [hq, e1, e2, List.getElem_map, List.getElem_map]
    ring

/-- C257: quantiles of values with the sign changed. -/
theorem quantileVal_neg (l : List ℚ) (hl : l ≠ []) (q : ℚ) (h0 : 0 ≤ q) (h1 : q ≤ 1) : quantileVal (l.map (fun x => -x)) q = -quantileVal l (1 - q) := by
  rcases Nat.lt_or_ge l.length 2 with h | h
  · obtain ⟨x, rfl⟩ : ∃ x, l = [x] := List.length_eq_one_iff.1 (by have := List.length_pos_of_ne_nil hl; omega)
    rw [List.map_singleton, quantileVal_single _ _ h0 h1, quantileVal_single _ _ (by linarith) (by linarith)]
  · obtain ⟨m, γ, hm, g0, g1, hq⟩ := level_split l.length h q h0 h1
    set s := l.insertionSort (· ≤ ·) with hs
    have hp : s.Perm l := List.perm_insertionSort _ l
    have hlen : s.length = l.length := hp.length_eq
    have hsort : s.Pairwise (· ≤ ·) := sort_pairwise l
    have hn' : ((l.length : ℚ) - 1) ≠ 0 := by
      have : (2 : ℚ) ≤ l.length := by exact_mod_cast h
      intro hz; linarith
    have hq' : 1 - q = (((l.length - 2 - m : Nat) : ℚ) + (1 - γ)) / ((l.length : ℚ) - 1) := by
      rw [hq, eq_div_iff hn', sub_mul, div_mul_cancel₀ _ hn', Nat.cast_sub (by omega), Nat.cast_sub h]
      push_cast
      ring
    have e1 := C05_linear_interpolation l s hp hsort (l.length - 2 - m) (by omega) (1 - γ) (by linarith) (by linarith)
    have hrev : ((s.map (fun x => -x)).reverse).Pairwise (· ≤ ·) := by
      rw [List.pairwise_reverse, List.pairwise_map]
      exact hsort.imp fun hab => neg_le_neg hab
    have e2 := C05_linear_interpolation (l.map (fun x => -x)) (s.map (fun x => -x)).reverse ((List.reverse_perm _).trans (hp.map _)) hrev m
      (by rw [List.length_reverse, List.length_map]; omega) γ g0 g1
    rw [List.length_map] at e2
    rw [hq', e1, hq, e2, List.getElem_reverse, List.getElem_reverse, List.getElem_map, List.getElem_map]
    have i1 : (s.map (fun x => -x)).length - 1 - m = l.length - 2 - m + 1 := by rw [List.length_map]; omega
    have i2 : (s.map (fun x => -x)).length - 1 - (m + 1) = l.length - 2 - m := by rw [List.length_map]; omega
    simp only [i1, i2]
    ring

open Classical in
/-- The rows behind the distribution of an hour. -/
noncomputable def rowsOf {T : Nat} (rows : List (ErrRow T)) (h : Fin 24) : List (ErrRow T) :=
  if ∀ h : Fin 24, ∃ r ∈ rows, r.hour = h then rows.filter (fun r => r.hour == h) else rows

theorem rowsOf_ne {T : Nat} {rows : List (ErrRow T)} (hne : rows ≠ []) (h : Fin 24) : rowsOf rows h ≠ [] := by
  unfold rowsOf
  split
  · rename_i hall
    obtain ⟨r, hr, hrh⟩ := hall h
    exact List.ne_nil_of_mem (List.mem_filter.2 ⟨hr, by simpa using hrh⟩)
  · exact hne

theorem rowsOf_map {T : Nat} (rows : List (ErrRow T)) (g : ErrRow T → ErrRow T) (hg : ∀ r, (g r).hour = r.hour) (h : Fin 24) :
    rowsOf (rows.map g) h = (rowsOf rows h).map g := by
  unfold rowsOf
  have : (∀ h : Fin 24, ∃ r ∈ rows.map g, r.hour = h) ↔ ∀ h : Fin 24, ∃ r ∈ rows, r.hour = h := by
    constructor
    · intro H h
      obtain ⟨r, hr, e⟩ := H h
      obtain ⟨r', hr', rfl⟩ := List.mem_map.1 hr
      exact ⟨r', hr', by rw [← e, hg]⟩
    · intro H h
      obtain ⟨r, hr, e⟩ := H h
      exact ⟨g r, List.mem_map_of_mem hr, by rw [hg, e]⟩
  by_cases hh : ∀ h : Fin 24, ∃ r ∈ rows, r.hour = h
  · rw [if_pos hh, if_pos (this.2 hh), List.filter_map]
    congr 1
    apply List.filter_congr
    intro r _
    simp [hg]
  · rw [if_neg hh, if_neg (fun x => hh (this.1 x))]

theorem table_eq {T : Nat} (qv : List ℚ) (rows : List (ErrRow T)) (hq : ValidLevels qv) (hne : rows ≠ []) :
    estimateErrDistr true qv rows = .ok (.byHour (fun h j => qv.map (quantileVal ((rowsOf rows h).map (fun r => r.err j))))) := by
  by_cases hall : ∀ h : Fin 24, ∃ r ∈ rows, r.hour = h
  · obtain ⟨f, h1, h2⟩ := C06_conditional qv rows hq hall
    rw [h1]
    congr 2
    funext h j
    rw [h2, errorsAt, rowsOf, if_pos hall]
  · have hmiss : ∃ h : Fin 24, ∀ r ∈ rows, r.hour ≠ h := by
      by_contra hc
      apply hall
      intro h
      by_contra hc'
      exact hc ⟨h, fun r hr hrh => hc' ⟨r, hr, hrh⟩⟩
    obtain ⟨f, h1, h2⟩ := C06_pooled_fallback qv rows hq hne hmiss
    rw [h1]
    congr 2
    funext h j
    rw [h2, rowsOf, if_neg hall]

theorem predict_ok {X : Type} {T : Nat} (predict : X → Fin T → ℚ) (f : Fin 24 → Table T) (rows : List (X × Fin 24)) :
    predictQuantiles predict (.byHour f) rows = .ok (rows.map (fun r j => (f r.2 j).map (fun e => predict r.1 j + e))) := by
  unfold predictQuantiles
  apply mapM_ok
  intro a _
  rfl

/-- C257: target `j` is measured in other units, `y ↦ k j * y + d j` with `k j ≥ 0`, and the point forecasts change accordingly. Then all quantile
forecasts change accordingly: same rows, same levels, same hours. -/
theorem C257_units {X : Type} {T : Nat} (predict : X → Fin T → ℚ) (qv : List ℚ) (train : List (TrainRow X T)) (hq : ValidLevels qv) (hne : train ≠ [])
    (k d : Fin T → ℚ) (hk : ∀ j, 0 ≤ k j) :
    ∃ ed ed', fitErr predict true qv train = .ok ed ∧
      fitErr (fun x j => k j * predict x j + d j) true qv (train.map (fun r => { r with y := fun j => k j * r.y j + d j })) = .ok ed' ∧
      ∀ rows : List (X × Fin 24), ∃ Q, predictQuantiles predict ed rows = .ok Q ∧
        predictQuantiles (fun x j => k j * predict x j + d j) ed' rows = .ok (Q.map (fun q j => (q j).map (fun v => k j * v + d j))) := by
  set E := train.map (fun r => (⟨r.hour, fun j => r.y j - predict r.x j⟩ : ErrRow T)) with hE
  have hE0 : E ≠ [] := by simpa [hE] using hne
  set g : ErrRow T → ErrRow T := fun r => ⟨r.hour, fun j => k j * r.err j⟩ with hg
  have hE' : (train.map (fun r => ({ r with y := fun j => k j * r.y j + d j } : TrainRow X T))).map
      (fun r => (⟨r.hour, fun j => r.y j - (k j * predict r.x j + d j)⟩ : ErrRow T)) = E.map g := by
    rw [hE, List.map_map, List.map_map]
    apply List.map_congr_left
    intro r _
    simp only [Function.comp_apply, hg]
    congr 1
    funext j
    ring
  refine ⟨_, .byHour (fun h j => qv.map (quantileVal ((rowsOf (E.map g) h).map (fun r => r.err j)))), table_eq qv E hq hE0, ?_, ?_⟩
  · unfold fitErr
    rw [hE']
    exact table_eq qv (E.map g) hq (by simpa using hE0)
  · intro rows
    refine ⟨_, predict_ok _ _ _, ?_⟩
    clear_value E
    rw [predict_ok, List.map_map]
    congr 1
    apply List.map_congr_left
    intro r _
    funext j
    simp only [Function.comp_apply, List.map_map]
    apply List.map_congr_left
    intro q hmem
    simp only [Function.comp_apply]
    rw [rowsOf_map E g (fun _ => rfl), List.map_map]
    have hm : (rowsOf E r.2).map ((fun r => r.err j) ∘ g) = ((rowsOf E r.2).map (fun r => r.err j)).map (k j * ·) := by rw [List.map_map]; rfl
    rw [hm, quantileVal_scale _ (by simpa using rowsOf_ne hE0 r.2) q (hq q hmem).1 (hq q hmem).2 _ (hk j)]
    ring

/-- C257 (mirror image): with the sign of the targets and of the point forecasts changed, the quantile forecasts of level `q` are minus those of level
`1 - q`. -/
theorem C257_mirror {X : Type} {T : Nat} (predict : X → Fin T → ℚ) (qv : List ℚ) (train : List (TrainRow X T)) (hq : ValidLevels qv) (hne : train ≠ []) :
    ∃ ed ed', fitErr predict true (qv.map (fun q => 1 - q)) train = .ok ed ∧
      fitErr (fun x j => -predict x j) true qv (train.map (fun r => { r with y := fun j => -r.y j })) = .ok ed' ∧
      ∀ rows : List (X × Fin 24), ∃ Q, predictQuantiles predict ed rows = .ok Q ∧
        predictQuantiles (fun x j => -predict x j) ed' rows = .ok (Q.map (fun q j => (q j).map (fun v => -v))) := by
  set E := train.map (fun r => (⟨r.hour, fun j => r.y j - predict r.x j⟩ : ErrRow T)) with hE
  have hE0 : E ≠ [] := by simpa [hE] using hne
  have hq' : ValidLevels (qv.map (fun q => 1 - q)) := by
    intro q hm
    obtain ⟨q', h', rfl⟩ := List.mem_map.1 hm
    have := hq q' h'
    exact ⟨by linarith [this.2], by linarith [this.1]⟩
  set g : ErrRow T → ErrRow T := fun r => ⟨r.hour, fun j => -r.err j⟩ with hg
  have hE' : (train.map (fun r => ({ r with y := fun j => -r.y j } : TrainRow X T))).map
      (fun r => (⟨r.hour, fun j => r.y j - (-predict r.x j)⟩ : ErrRow T)) = E.map g := by
    rw [hE, List.map_map, List.map_map]
    apply List.map_congr_left
    intro r _
    simp only [Function.comp_apply, hg]
    congr 1
    funext j
    ring
  refine ⟨_, .byHour (fun h j => qv.map (quantileVal ((rowsOf (E.map g) h).map (fun r => r.err j)))), table_eq _ E hq' hE0, ?_, ?_⟩
  · unfold fitErr
    rw [hE']
    exact table_eq qv (E.map g) hq (by simpa using hE0)
  · intro rows
    refine ⟨_, predict_ok _ _ _, ?_⟩
    clear_value E
    rw [predict_ok, List.map_map]
    congr 1
    apply List.map_congr_left
    intro r _
    funext j
    simp only [Function.comp_apply, List.map_map]
    apply List.map_congr_left
    intro q hmem
    simp only [Function.comp_apply]
    rw [rowsOf_map E g (fun _ => rfl), List.map_map]
    have hm : (rowsOf E r.2).map ((fun r => r.err j) ∘ g) = ((rowsOf E r.2).map (fun r => r.err j)).map (fun x => -x) := by rw [List.map_map]; rfl
    rw [hm, quantileVal_neg _ (by simpa using rowsOf_ne hE0 r.2) q (hq q hmem).1 (hq q hmem).2]
    ring

/-- Three training rows, two targets, kilowatts to watts for the first and an offset for the second. -/
example : ∃ train : List (TrainRow ℚ 2), train.length = 3 ∧ train ≠ [] ∧ ValidLevels [1/10, 1/2, 9/10] ∧ ∀ j : Fin 2, (0 : ℚ) ≤ if j = 0 then 1000 else 1 := by
  refine ⟨[⟨1, 0, fun j => j⟩, ⟨2, 1, fun j => 3 + j⟩, ⟨0, 2, fun j => 7 * j⟩], rfl, by simp, ?_, ?_⟩
  · intro q hm
    simp only [List.mem_cons, List.not_mem_nil, or_false] at hm
    rcases hm with rfl | rfl | rfl <;> norm_num
  · intro j; split <;> norm_num
example : quantileVal ([3, 1, 2, 10].map (1000 * ·)) (9/10) = 1000 * (79/10) ∧ quantileVal ([3, 1, 2, 10].map (fun x => -x)) (1/10) = -(79/10) := by
  constructor <;> decide +kernel

end PyF.Quantile
