import Verif.Quantile.Lemmas

/-!
Properties C05-C08: the error distribution and the predicted quantiles.
-/

namespace PyF.Quantile
open PyF Spec

/-- **C05.** The error quantile is an empirical quantile of its sample (counting specification), for
every level in `[0,1]`. -/
theorem C05_is_empirical_quantile (sample : List ℚ) (q : ℚ) (hne : sample ≠ []) (h0 : 0 ≤ q) (h1 : q ≤ 1) :
    IsEmpiricalQuantile sample q (quantileVal sample q) ∧ WithinSample sample (quantileVal sample q) :=
  ⟨quantileVal_isEmpirical hne h0 h1, within_of_isEmpirical hne h0 h1 (quantileVal_isEmpirical hne h0 h1)⟩

/-- **C05.** Non-decreasing in the level. -/
theorem C05_monotone (sample : List ℚ) (q r : ℚ) (hne : sample ≠ []) (h0 : 0 ≤ q) (hqr : q ≤ r) (h1 : r ≤ 1) :
    quantileVal sample q ≤ quantileVal sample r :=
  quantileVal_mono hne h0 hqr h1

/-- **C05.** Level 0 is the smallest error, level 1 the largest. -/
theorem C05_extremes (sample : List ℚ) (hne : sample ≠ []) :
    IsMin sample (quantileVal sample 0) ∧ IsMax sample (quantileVal sample 1) := by
  set s := sample.insertionSort (· ≤ ·) with hs
  have hp : s.Perm sample := List.perm_insertionSort _ _
  have hsl : s.length = sample.length := hp.length_eq
  have hpos : 0 < sample.length := List.length_pos_iff.2 hne
  have hsorted : s.Pairwise (· ≤ ·) := sort_pairwise sample
  have e0 : quantileVal sample 0 = s.getD 0 0 := by
    unfold quantileVal lerpAt; simp [← hs]
  have e1 : quantileVal sample 1 = s.getD (s.length - 1) 0 := by
    have hfl : ⌊(1 : ℚ) * ((sample.length : ℚ) - 1)⌋ = ((sample.length - 1 : ℕ) : ℤ) := by
      rw [one_mul, ← Nat.cast_one, ← Nat.cast_sub (by omega)]; simp
    unfold quantileVal lerpAt
    simp only [← hs, hfl, Int.toNat_natCast]
    have hmin : min (sample.length - 1 + 1) (s.length - 1) = sample.length - 1 := by omega
    rw [hmin, hsl]; ring
  have hget : ∀ i, i < s.length → s.getD i 0 ∈ sample := by
    intro i hi
    rw [List.getD_eq_getElem _ _ hi]
    exact hp.mem_iff.1 (List.getElem_mem hi)
  constructor
  · refine ⟨by rw [e0]; exact hget 0 (by omega), ?_⟩
    intro e he
    obtain ⟨k, hk, rfl⟩ := List.mem_iff_getElem.1 (hp.mem_iff.2 he)
    rw [e0, ← List.getD_eq_getElem s 0 hk]
    exact getD_mono hsorted (Nat.zero_le _) hk
  · refine ⟨by rw [e1]; exact hget _ (by omega), ?_⟩
    intro e he
    obtain ⟨k, hk, rfl⟩ := List.mem_iff_getElem.1 (hp.mem_iff.2 he)
    rw [e1, ← List.getD_eq_getElem s 0 hk]
    exact getD_mono hsorted (by omega) (by omega)

/-- **C05.** Between consecutive order statistics the quantile interpolates linearly: for any sorted
arrangement `s` of the sample, at level `(k + γ) / (n - 1)` it is `(1-γ) s[k] + γ s[k+1]`. -/
theorem C05_linear_interpolation (sample s : List ℚ) (hp : s.Perm sample) (hs : s.Pairwise (· ≤ ·))
    (k : Nat) (hk : k + 1 < s.length) (γ : ℚ) (h0 : 0 ≤ γ) (h1 : γ ≤ 1) :
    quantileVal sample (((k : ℚ) + γ) / ((sample.length : ℚ) - 1))
      = (1 - γ) * s[k] + γ * s[k + 1] := by
  have hsort : sample.insertionSort (· ≤ ·) = s :=
    ((List.perm_insertionSort _ sample).trans hp.symm).eq_of_pairwise
      (fun x y _ _ h1 h2 => le_antisymm h1 h2) (sort_pairwise sample) hs
  have hlen : s.length = sample.length := hp.length_eq
  have hn : ((sample.length : ℚ) - 1) ≠ 0 := by
    have : (2 : ℚ) ≤ sample.length := by exact_mod_cast (by omega : 2 ≤ sample.length)
    intro h; linarith
  unfold quantileVal
  rw [div_mul_cancel₀ _ hn, hsort]
  unfold lerpAt
  rcases eq_or_lt_of_le h1 with h | h
  · subst h
    have hf : ⌊(k : ℚ) + 1⌋ = ((k + 1 : Nat) : ℤ) := by
      rw [← Nat.cast_one, ← Nat.cast_add]; exact Int.floor_natCast _
    simp only [hf, Int.toNat_natCast]
    rw [List.getD_eq_getElem s 0 hk]
    push_cast
    ring
  · have hf : ⌊(k : ℚ) + γ⌋ = (k : ℤ) := by
      rw [Int.floor_eq_iff]; push_cast; constructor <;> linarith
    simp only [hf, Int.toNat_natCast]
    have hmin : min (k + 1) (s.length - 1) = k + 1 := by omega
    rw [hmin, List.getD_eq_getElem s 0 hk, List.getD_eq_getElem s 0 (by omega)]
    push_cast
    ring

example : quantileVal [5, 1, 2] ((1 + 1 / 3) / 2) = (1 - 1 / 3) * 2 + 1 / 3 * 5 := by decide +kernel

/-- **C05.** The order in which the errors were observed is irrelevant. -/
theorem C05_order_irrelevant (a b : List ℚ) (q : ℚ) (h : a.Perm b) : quantileVal a q = quantileVal b q := by
  unfold quantileVal
  have : a.insertionSort (· ≤ ·) = b.insertionSort (· ≤ ·) :=
    (((List.perm_insertionSort _ a).trans h).trans (List.perm_insertionSort _ b).symm).eq_of_pairwise
      (fun x y _ _ h1 h2 => le_antisymm h1 h2) (sort_pairwise a) (sort_pairwise b)
  rw [this, h.length_eq]

/-- All levels are probabilities. -/
def ValidLevels (qv : List ℚ) : Prop := ∀ q ∈ qv, 0 ≤ q ∧ q ≤ 1

theorem levels_ok {qv : List ℚ} (h : ValidLevels qv) : qv.any (fun q => q < 0 || 1 < q) = false := by
  rw [List.any_eq_false]
  intro q hq
  have := h q hq
  simp [not_lt.2 this.1, not_lt.2 this.2]

/-- The observed errors of target `j` at hour `h`. -/
def errorsAt {T : Nat} (rows : List (ErrRow T)) (h : Fin 24) (j : Fin T) : List ℚ :=
  (rows.filter (fun r => r.hour == h)).map (fun r => r.err j)

/-- **C06 (a).** If all 24 hours occur, fitting succeeds and the distribution stored for hour `h` and
target `j` is the list of the quantiles of the errors observed at hour `h` for target `j`. -/
theorem C06_conditional {T : Nat} (qv : List ℚ) (rows : List (ErrRow T)) (hq : ValidLevels qv)
    (hall : ∀ h : Fin 24, ∃ r ∈ rows, r.hour = h) :
    ∃ f, estimateErrDistr true qv rows = .ok (.byHour f) ∧
      ∀ h j, f h j = qv.map (quantileVal (errorsAt rows h j)) := by
  refine ⟨fun h j => qv.map (quantileVal (errorsAt rows h j)), ?_, fun _ _ => rfl⟩
  unfold estimateErrDistr
  rw [if_pos rfl, if_neg (by simpa using (all_hours_iff rows).2 hall)]
  rw [forHours_ok (g := fun h j => qv.map (quantileVal (errorsAt rows h j)))]
  intro h
  unfold quantileTable
  have hne : (rows.filter (fun r => r.hour == h)).isEmpty = false := by
    obtain ⟨r, hr, hrh⟩ := hall h
    rw [List.isEmpty_eq_false_iff_exists_mem]
    exact ⟨r, List.mem_filter.2 ⟨hr, by simpa using hrh⟩⟩
  simp [levels_ok hq, hne, errorsAt]

/-- **C06 (b), non-interference.** When all hours occur in both histories, changing the errors of the
other hours in any way (also their number and order) does not change the distribution of hour `h`. -/
theorem C06_hour_noninterference {T : Nat} (qv : List ℚ) (rows rows' : List (ErrRow T))
    (hq : ValidLevels qv) (hall : ∀ h : Fin 24, ∃ r ∈ rows, r.hour = h)
    (hall' : ∀ h : Fin 24, ∃ r ∈ rows', r.hour = h) (h : Fin 24)
    (hsame : rows.filter (fun r => r.hour == h) = rows'.filter (fun r => r.hour == h)) :
    ∃ f f', estimateErrDistr true qv rows = .ok (.byHour f) ∧
      estimateErrDistr true qv rows' = .ok (.byHour f') ∧ f h = f' h := by
  obtain ⟨f, h1, h2⟩ := C06_conditional qv rows hq hall
  obtain ⟨f', h1', h2'⟩ := C06_conditional qv rows' hq hall'
  refine ⟨f, f', h1, h1', ?_⟩
  funext j
  rw [h2, h2', errorsAt, errorsAt, hsame]

/-- **C06 (c).** If some hour is missing (and there is at least one row), all 24 hours get the same
distribution, that of the pooled errors. No hour is left without a distribution. -/
theorem C06_pooled_fallback {T : Nat} (qv : List ℚ) (rows : List (ErrRow T)) (hq : ValidLevels qv)
    (hne : rows ≠ []) (hmiss : ∃ h : Fin 24, ∀ r ∈ rows, r.hour ≠ h) :
    ∃ f, estimateErrDistr true qv rows = .ok (.byHour f) ∧
      ∀ h j, f h j = qv.map (quantileVal (rows.map (fun r => r.err j))) := by
  refine ⟨fun _ j => qv.map (quantileVal (rows.map (fun r => r.err j))), ?_, fun _ _ => rfl⟩
  unfold estimateErrDistr
  have hnot : ¬ ∀ h : Fin 24, ∃ r ∈ rows, r.hour = h := by
    intro hall
    obtain ⟨h, hh⟩ := hmiss
    obtain ⟨r, hr, hrh⟩ := hall h
    exact hh r hr hrh
  rw [if_pos rfl, if_pos (fun h => hnot ((all_hours_iff rows).1 h))]
  rw [forHours_ok (g := fun _ j => qv.map (quantileVal (rows.map (fun r => r.err j))))]
  intro _
  unfold quantileTable
  simp [levels_ok hq, hne]

/-- The conditional error distribution exists and each of its entries is a map of a quantile function of
a non-empty sample. -/
theorem fitted_table {T : Nat} (qv : List ℚ) (rows : List (ErrRow T)) (hq : ValidLevels qv)
    (hne : rows ≠ []) :
    ∃ f, estimateErrDistr true qv rows = .ok (.byHour f) ∧
      ∀ h j, ∃ sample : List ℚ, sample ≠ [] ∧ f h j = qv.map (quantileVal sample) := by
  by_cases hall : ∀ h : Fin 24, ∃ r ∈ rows, r.hour = h
  · obtain ⟨f, h1, h2⟩ := C06_conditional qv rows hq hall
    refine ⟨f, h1, fun h j => ⟨_, ?_, h2 h j⟩⟩
    obtain ⟨r, hr, hrh⟩ := hall h
    have : r.err j ∈ errorsAt rows h j :=
      List.mem_map.2 ⟨r, List.mem_filter.2 ⟨hr, by simpa using hrh⟩, rfl⟩
    exact List.ne_nil_of_mem this
  · have hmiss : ∃ h : Fin 24, ∀ r ∈ rows, r.hour ≠ h := by
      by_contra hc
      apply hall
      intro h
      by_contra hc'
      exact hc ⟨h, fun r hr hrh => hc' ⟨r, hr, hrh⟩⟩
    obtain ⟨f, h1, h2⟩ := C06_pooled_fallback qv rows hq hne hmiss
    exact ⟨f, h1, fun h j => ⟨_, by simpa using hne, h2 h j⟩⟩

theorem mapM_ok {α β : Type} (f : α → Except PyErr β) (g : α → β) (l : List α)
    (h : ∀ a ∈ l, f a = .ok (g a)) : l.mapM f = .ok (l.map g) := by
  induction l with
  | nil => rfl
  | cons a l ih =>
    rw [List.mapM_cons, h a List.mem_cons_self, ih (fun b hb => h b (List.mem_cons_of_mem _ hb))]
    rfl

/-- **C07.** Fit then predict, for any point forecaster, any non-empty training history and any valid
levels: quantile prediction succeeds for any rows; the quantiles of target `j` of a row are the point
forecast plus a list `e` of error quantiles that depends only on the training data, the row's hour and
the target; if the levels are increasing the predicted quantiles are non-decreasing. -/
theorem C07_quantiles_do_not_cross {X : Type} {T : Nat} (predict : X → Fin T → ℚ) (qv : List ℚ)
    (train : List (TrainRow X T)) (hq : ValidLevels qv) (hne : train ≠ []) :
    ∃ ed, fitErr predict true qv train = .ok ed ∧
      ∃ e : Fin 24 → Fin T → List ℚ,
        (∀ rows : List (X × Fin 24), predictQuantiles predict ed rows
          = .ok (rows.map (fun r j => (e r.2 j).map (fun d => predict r.1 j + d)))) ∧
        (∀ h j, (e h j).length = qv.length) ∧
        (qv.Pairwise (· ≤ ·) → ∀ h j c, ((e h j).map (fun d => c + d)).Pairwise (· ≤ ·)) := by
  obtain ⟨f, h1, h2⟩ := fitted_table qv
    (train.map (fun r => (⟨r.hour, fun j => r.y j - predict r.x j⟩ : ErrRow T))) hq (by simpa using hne)
  refine ⟨.byHour f, h1, f, ?_, ?_, ?_⟩
  · intro rows
    unfold predictQuantiles
    apply mapM_ok
    intro a _
    rfl
  · intro h j
    obtain ⟨s, _, hs⟩ := h2 h j
    rw [hs, List.length_map]
  · intro hsorted h j c
    obtain ⟨s, hs0, hs⟩ := h2 h j
    rw [hs, List.pairwise_map, List.pairwise_map]
    refine hsorted.imp_of_mem ?_
    intro a b ha hb hab
    have := quantileVal_mono hs0 (hq a ha).1 hab (hq b hb).2
    linarith

/-- **C07.** The quantiles of hour `h` are centred on the right errors: with all hours present in the
training data, the quantile of level number `k` is the forecast plus an empirical quantile of that level
of the past errors `y - forecast` of that very target at that very hour. -/
theorem C07_right_errors {X : Type} {T : Nat} (predict : X → Fin T → ℚ) (qv : List ℚ)
    (train : List (TrainRow X T)) (hq : ValidLevels qv)
    (hall : ∀ h : Fin 24, ∃ r ∈ train, r.hour = h) (x : X) (h : Fin 24) (j : Fin T) (k : Nat)
    (hk : k < qv.length) :
    ∃ ed q, fitErr predict true qv train = .ok ed ∧ rowQuantiles ed h (predict x) = .ok q ∧
      ∃ v, (q j)[k]? = some (predict x j + v) ∧
        IsEmpiricalQuantile ((train.filter (fun r => r.hour == h)).map (fun r => r.y j - predict r.x j))
          (qv[k]) v := by
  set rows := train.map (fun r => (⟨r.hour, fun j => r.y j - predict r.x j⟩ : ErrRow T)) with hrows
  have hall' : ∀ h : Fin 24, ∃ r ∈ rows, r.hour = h := by
    intro h
    obtain ⟨r, hr, hrh⟩ := hall h
    exact ⟨_, List.mem_map.2 ⟨r, hr, rfl⟩, hrh⟩
  obtain ⟨f, h1, h2⟩ := C06_conditional qv rows hq hall'
  refine ⟨.byHour f, _, h1, rfl, quantileVal (errorsAt rows h j) qv[k], ?_, ?_⟩
  · simp only [h2, List.map_map, List.getElem?_map, List.getElem?_eq_getElem hk, Option.map_some,
      Function.comp_apply]
  · have heq : errorsAt rows h j
        = (train.filter (fun r => r.hour == h)).map (fun r => r.y j - predict r.x j) := by
      rw [errorsAt, hrows, List.filter_map, List.map_map]
      rfl
    rw [heq]
    have hmem := hq _ (List.getElem_mem hk)
    apply quantileVal_isEmpirical _ hmem.1 hmem.2
    obtain ⟨r, hr, hrh⟩ := hall h
    rw [ne_eq, List.map_eq_nil_iff, List.filter_eq_nil_iff]
    intro hc
    exact hc r hr (by simpa using hrh)

/-- **C08 (a).** With `conditional_to_hour=False`, a row whose hour is not below the number of targets
makes the prediction fail, whatever the other rows are before it. -/
theorem C08_index_error {X : Type} {T : Nat} (predict : X → Fin T → ℚ) (t : Table T)
    (before after : List (X × Fin 24)) (x : X) (h : Fin 24) (hT : T ≤ h.val) :
    predictQuantiles predict (.pooled t) (before ++ (x, h) :: after) = .error .indexError := by
  unfold predictQuantiles
  induction before with
  | nil =>
    rw [List.nil_append, List.mapM_cons]
    simp [rowQuantiles, Nat.not_lt.2 hT]
    rfl
  | cons b l ih =>
    rw [List.cons_append, List.mapM_cons]
    rcases b with ⟨bx, bh⟩
    by_cases hb : bh.val < T
    · simp only [rowQuantiles, hb, dite_true]
      rw [show (fun r : X × Fin 24 => rowQuantiles (.pooled t) r.2 (predict r.1))
        = (fun r => rowQuantiles (.pooled t) r.2 (predict r.1)) from rfl] at ih
      simp only [rowQuantiles] at ih
      rw [ih]; rfl
    · simp [rowQuantiles, hb]
      rfl

/-- **C08 (b).** What is computed otherwise: every target receives the error quantiles of target
number `hour`. The expected result (error quantiles of the target itself) is obtained for all tables
and forecasts exactly when there is one target and the hour is 0. -/
theorem C08_correct_iff {T : Nat} (h : Fin 24) :
    (∀ (t : Table T) (p : Fin T → ℚ),
      rowQuantiles (.pooled t) h p = .ok (fun j => (t j).map (fun e => p j + e)))
      ↔ (T = 1 ∧ h.val = 0) := by
  constructor
  · intro hall
    have hlt : h.val < T := by
      by_contra hc
      have := hall (fun _ => []) (fun _ => 0)
      simp [rowQuantiles, hc] at this
    have hone : ∀ j : Fin T, j.val = h.val := by
      intro j
      have := hall (fun i => [(i.val : ℚ)]) (fun _ => 0)
      simp only [rowQuantiles, hlt, dite_true, Except.ok.injEq] at this
      have := congrFun this j
      simp only [List.map_cons, List.map_nil, zero_add, List.cons.injEq, and_true] at this
      exact_mod_cast this.symm
    have h0 := hone ⟨0, by omega⟩
    simp only at h0
    refine ⟨?_, by omega⟩
    by_contra hT
    have := hone ⟨1, by omega⟩
    simp at this
    omega
  · rintro ⟨rfl, hh⟩ t p
    have : ∀ j : Fin 1, (⟨h.val, by omega⟩ : Fin 1) = j := fun j => Fin.ext (by omega)
    simp only [rowQuantiles]
    rw [dif_pos (by omega)]
    congr 1
    funext j
    rw [this j]

/-- **C08 (c).** The distribution itself is computed correctly when not conditioning. -/
theorem C08_pooled_table {T : Nat} (qv : List ℚ) (rows : List (ErrRow T)) (hq : ValidLevels qv)
    (hne : rows ≠ []) :
    estimateErrDistr false qv rows
      = .ok (.pooled (fun j => qv.map (quantileVal (rows.map (fun r => r.err j))))) := by
  simp [estimateErrDistr, quantileTable, levels_ok hq, hne]

/-! ### Concrete instances -/

example : quantileVal [3, 1, 2, 10] (1/2) = 5/2 := by decide +kernel
example : quantileVal [3, 1, 2, 10] (9/10) = 79/10 := by decide +kernel

example : IsEmpiricalQuantile [3, 1, 2, 10] (1/2) (5/2) := by
  constructor <;> norm_num [List.countP_cons]

/-- A training set with every hour present, two targets. -/
def exTrain : List (TrainRow ℚ 2) :=
  (List.finRange 24).flatMap (fun h =>
    [⟨1, h, fun j => h.val + j.val⟩, ⟨2, h, fun j => 3 * h.val - j.val⟩])

example : ∀ h : Fin 24, ∃ r ∈ exTrain, r.hour = h := by
  intro h
  exact ⟨⟨1, h, fun j => h.val + j.val⟩, by simp [exTrain], rfl⟩

example : ValidLevels [1/10, 1/2, 9/10] := by
  intro q hq
  simp only [List.mem_cons, List.not_mem_nil, or_false] at hq
  rcases hq with rfl | rfl | rfl <;> norm_num

/-- Two targets, hour 1: target 0 gets target 1's errors. -/
example : rowQuantiles (.pooled (fun j : Fin 2 => [(j.val : ℚ)])) 1 (fun _ => 10)
    = .ok (fun _ => [11]) := by
  simp only [rowQuantiles]
  norm_num

end PyF.Quantile
