import Verif.Kpi.Lemmas

/-!
C188: quantile scores of a hierarchy. C189: point scores and averages per level. C190: quantiles of the base forecasters.
-/

namespace PyF.Kpi

open PyF Recon Finset

variable {N : Type} [LinearOrder N]

/-- C188. The crps reported for the `k`-th series of the target matrix is that of the quantiles of the `k`-th series in sorted order against the targets of the former. -/
theorem C188_pairs (h : Hier N) (hk : (keys h).Nodup) (names : List N) (r q : ℕ) (alphas : List ℚ) (hat : N → ℕ → ℕ → ℚ) (y : N → ℕ → ℚ) (ss : List N) (hp : ss.Perm (order h names))
    (hs : ss.Pairwise (· ≤ ·)) :
    (q < alphas.length → crpsTable h names r q alphas hat y = .error .indexError) ∧
    (alphas.length ≤ q → ∃ tab, crpsTable h names r q alphas hat y = .ok tab ∧ tab.map Prod.fst = order h names ∧
      ∀ (k : ℕ) (m n : N), ss[k]? = some m → (order h names)[k]? = some n → tab.lookup n = some (ownCrps r alphas (hat m) (y n))) := by
  refine ⟨fun hq => ?_, fun hq => ?_⟩
  · unfold crpsTable; rw [if_neg (by omega)]
  · refine ⟨_, by unfold crpsTable; rw [if_pos hq], table_fst (targetCols h names) _, fun k m n h1 h2 => ?_⟩
    have hc : quantileCols h names = ss := sorted_unique hp hs
    rw [table_lookup (targetCols h names) (order_nodup hk names) (fun k => crps r alphas (tensor (quantileCols h names) hat) (matrix (targetCols h names) y) k) k n h2]
    exact congrArg some (crps_eq r alphas _ _ hat y k m n (by rw [hc]; exact h1) h2)

/-- C188. The same for the reliability at each level. -/
theorem C188_reliability (h : Hier N) (hk : (keys h).Nodup) (names : List N) (r q : ℕ) (alphas : List ℚ) (hat : N → ℕ → ℕ → ℚ) (y : N → ℕ → ℚ) (a : ℕ) (ss : List N)
    (hp : ss.Perm (order h names)) (hs : ss.Pairwise (· ≤ ·)) (hq : alphas.length ≤ q) :
    ∃ tab, relTable h names r q alphas hat y a = .ok tab ∧ tab.map Prod.fst = order h names ∧
      ∀ (k : ℕ) (m n : N), ss[k]? = some m → (order h names)[k]? = some n → tab.lookup n = some (ownShare r (fun i => hat m i a) (y n)) := by
  refine ⟨_, by unfold relTable; rw [if_pos hq], table_fst (targetCols h names) _, fun k m n h1 h2 => ?_⟩
  have hc : quantileCols h names = ss := sorted_unique hp hs
  rw [table_lookup (targetCols h names) (order_nodup hk names) (fun k => relscore r (tensor (quantileCols h names) hat) (matrix (targetCols h names) y) a k) k n h2]
  exact congrArg some (rel_eq r _ _ hat y a k m n (by rw [hc]; exact h1) h2)

/-- C188. The scores are those of the series they are reported for, whatever the data, iff the aggregates in the order of the hierarchy followed by the other series in the order of the frame are sorted. -/
theorem C188_own_scores_iff (h : Hier N) (hk : (keys h).Nodup) (names : List N) (r q : ℕ) (hr : 0 < r) (alphas : List ℚ) (hne : alphas ≠ []) (h1 : ∀ a ∈ alphas, a < 1) (hq : alphas.length ≤ q) :
    (∀ (hat : N → ℕ → ℕ → ℚ) (y : N → ℕ → ℚ), ∃ tab, crpsTable h names r q alphas hat y = .ok tab ∧ ∀ n ∈ order h names, tab.lookup n = some (ownCrps r alphas (hat n) (y n))) ↔
      (order h names).Pairwise (· ≤ ·) := by
  have hp := List.perm_insertionSort (· ≤ ·) (order h names)
  have hs := List.pairwise_insertionSort (· ≤ ·) (order h names)
  constructor
  · intro H
    by_contra hns
    obtain ⟨k, m, n, e1, e2, hmn⟩ := exists_ne_of_not_sorted hp hs hns
    obtain ⟨tab, ht, hn⟩ := H (fun x _ _ => if x = n then 0 else 1) (fun _ _ => 0)
    obtain ⟨tab', ht', _, hl⟩ := (C188_pairs h hk names r q alphas (fun x _ _ => if x = n then 0 else 1) (fun _ _ => 0) _ hp hs).2 hq
    rw [ht] at ht'
    cases ht'
    have a1 := hn n (List.mem_of_getElem? e2)
    rw [hl k m n e1 e2] at a1
    simp only [if_neg hmn, if_true] at a1
    have := ownCrps_one_pos r hr alphas hne h1
    rw [Option.some.inj a1, ownCrps_zero] at this
    exact lt_irrefl _ this
  · intro hsort hat y
    obtain ⟨tab, ht, _, hl⟩ := (C188_pairs h hk names r q alphas hat y _ (List.Perm.refl _) hsort).2 hq
    refine ⟨tab, ht, fun n hn => ?_⟩
    obtain ⟨k, hk', e⟩ := List.getElem_of_mem hn
    have e' : (order h names)[k]? = some n := by rw [List.getElem?_eq_getElem hk', e]
    exact hl k n n e' e'

/-- C189. Point scores are those of the series they are reported for, in whatever order the columns come. -/
theorem C189_point (r : ℕ) (hr : 0 < r) (x t : Fr N) (hsame : ∀ n, n ∈ x.cols ↔ n ∈ t.cols) (n : N) (hn : n ∈ t.cols) :
    (rmse r x t).lookup n = some (some (ownRmse r (x.val n) (t.val n))) := by
  have hmem : n ∈ subCols x.cols t.cols := by
    unfold subCols
    by_cases he : x.cols = t.cols
    · rw [if_pos he, he]; exact hn
    · rw [if_neg he, List.mem_insertionSort, List.mem_append]; exact Or.inl ((hsame n).mpr hn)
  have hl : ∀ (l : List N) (g : N → Option ℝ), n ∈ l → (l.map (fun m => (m, g m))).lookup n = some (g n) := by
    intro l g
    induction l with
    | nil => intro h; cases h
    | cons a l ih =>
      intro h
      rw [List.map_cons, List.lookup_cons]
      by_cases hna : n = a
      · subst hna; simp
      · rw [show (n == a) = false from by simpa using hna]
        exact ih ((List.mem_cons.mp h).resolve_left hna)
  unfold rmse
  rw [hl _ _ hmem]
  congr 1
  have hv : (List.range r).filterMap (fun i => (sub x t n i).map (fun e => e ^ 2)) = (List.range r).map (fun i => (x.val n i - t.val n i) ^ 2) := by
    rw [← List.filterMap_eq_map]
    refine List.filterMap_congr fun i _ => ?_
    unfold sub
    rw [if_pos ⟨(hsame n).mpr hn, hn⟩]; rfl
  unfold colMean ownRmse
  rw [hv, if_neg (by simp; omega), ← List.sum_toFinset _ List.nodup_range, List.toFinset_range]
  simp

/-- C189. The number reported for a level is the average over the series with that level; series without a level are left out. -/
theorem C189_levels {K : Type} [Field K] (lv : List (N × ℕ)) (cols : List N) (hnd : cols.Nodup) (v : N → K) (d : ℕ) :
    levelMean lv (cols.map (fun n => (n, some (v n)))) d =
      if cols.toFinset.filter (fun n => assigned lv n = some d) = ∅ then none
      else some ((∑ n ∈ cols.toFinset.filter (fun n => assigned lv n = some d), v n) / (cols.toFinset.filter (fun n => assigned lv n = some d)).card) := by
  have e : ((cols.map (fun n => (n, some (v n)))).filter (fun p => assigned lv p.1 = some d)).filterMap (fun p => p.2) = (cols.filter (fun n => assigned lv n = some d)).map v := by
    rw [List.filter_map, List.filterMap_map, ← List.filterMap_eq_map]
    rfl
  have es : cols.toFinset.filter (fun n => assigned lv n = some d) = (cols.filter (fun n => assigned lv n = some d)).toFinset := by
    ext n; simp
  have hnd' := hnd.filter (fun n => decide (assigned lv n = some d))
  rw [es, List.sum_toFinset v hnd', List.toFinset_card_of_nodup hnd']
  unfold levelMean
  rw [e]
  cases hc : cols.filter (fun n => assigned lv n = some d) with
  | nil => simp
  | cons a l =>
    rw [if_neg (by simp)]
    simp

variable {L : Type} [DecidableEq L]

omit [LinearOrder N] [DecidableEq L] in
theorem concatSeries_frame (f : N → Except PyErr (List (L × L))) (ks : List N) (e : PyErr) (hne : ks ≠ []) (hf : ∀ k, f k = .error e) : concatSeries f ks = .error e := by
  cases ks with
  | nil => exact absurd rfl hne
  | cons a l =>
    unfold concatSeries
    rw [if_neg hne, List.mapM_cons, hf a]
    rfl

omit [LinearOrder N] [DecidableEq L] in
theorem concatSeries_ok (f : N → Except PyErr (List (L × L))) (ks : List N) (l : List (L × L)) (hne : ks ≠ []) (hf : ∀ k, f k = .ok l) :
    concatSeries f ks = .ok (ks.flatMap (fun k => l.map (fun p => (k, p.1, p.2)))) := by
  unfold concatSeries
  rw [if_neg hne]
  have : ks.mapM (fun k => (f k).map (fun l => l.map (fun p => (k, p.1, p.2)))) = .ok (ks.map (fun k => l.map (fun p => (k, p.1, p.2)))) := by
    refine Hybrid.mapM_ok _ _ _ (fun k _ => ?_)
    rw [hf k]; rfl
  rw [this]
  rfl

omit [DecidableEq L] in
/-- C190. If the base forecasters return frames, the quantiles of the base forecasters cannot be read: `IndexError` at every level of the hierarchy, `NotImplementedError` at a level that does not exist. -/
theorem C190_frames (h : Hier N) (hh : h ≠ []) (names : List N) (b : N) (hb : b ∈ names) (hb' : b ∉ keys h) (out : N → QOut) (hout : ∀ k, out k = .frame) (rows : N → ℕ) (steps levels : List L)
    (lev : Lev) : (lev ≠ .other → getQuantiles h names out rows steps levels lev = .error .indexError) ∧ (lev = .other → getQuantiles h names out rows steps levels lev = .error .notImplementedError) := by
  have hf : ∀ k, fromTensor (out k) (rows k) steps levels = .error .indexError := fun k => by rw [hout k]; rfl
  have h1 : (firsts names).filter (fun c => decide (c ∉ keys h)) ≠ [] := by
    intro hc
    have : b ∈ (firsts names).filter (fun c => decide (c ∉ keys h)) := List.mem_filter.mpr ⟨((firsts_spec names).2 b).mpr hb, by simpa using hb'⟩
    rw [hc] at this; cases this
  have h2 : keys h ≠ [] := by unfold keys; simpa using hh
  refine ⟨fun hlev => ?_, fun hlev => by subst hlev; rfl⟩
  cases lev with
  | bottom => exact concatSeries_frame _ _ _ h1 hf
  | aggregations => exact concatSeries_frame _ _ _ h2 hf
  | all =>
    unfold getQuantiles
    rw [concatSeries_frame _ _ _ h1 hf]
  | other => exact absurd rfl hlev

omit [DecidableEq L] in
/-- C190. With arrays of the right shape the columns are (series, level, step number): the last two are exchanged with respect to the reconciled quantiles. -/
theorem C190_layout (h : Hier N) (hh : h ≠ []) (names : List N) (b : N) (hb : b ∈ names) (hb' : b ∉ keys h) (out : N → QOut) (rows : N → ℕ) (steps levels : List L) (hl : levels ≠ [])
    (hout : ∀ k, out k = .array (rows k) steps.length levels.length) :
    getQuantiles h names out rows steps levels .all = .ok ((order h names).flatMap (fun n => levels.flatMap (fun q => steps.map (fun s => (n, q, s))))) := by
  have hlp : 0 < levels.length := List.length_pos_iff.mpr hl
  have hf : ∀ k, fromTensor (out k) (rows k) steps levels = .ok (levels.flatMap (fun q => steps.map (fun s => (q, s)))) := fun k => by
    rw [hout k]
    show (if _ then _ else _) = _
    rw [if_pos (Or.inl ⟨rfl, rfl⟩), if_neg (by rw [min_self]; omega), List.take_length]
  have h1 : (firsts names).filter (fun c => decide (c ∉ keys h)) ≠ [] := by
    intro hc
    have : b ∈ (firsts names).filter (fun c => decide (c ∉ keys h)) := List.mem_filter.mpr ⟨((firsts_spec names).2 b).mpr hb, by simpa using hb'⟩
    rw [hc] at this; cases this
  have h2 : keys h ≠ [] := by unfold keys; simpa using hh
  unfold getQuantiles
  rw [concatSeries_ok _ _ _ h1 hf, concatSeries_ok _ _ _ h2 hf]
  simp only
  rw [← List.flatMap_append]
  congr 1
  unfold order
  refine List.flatMap_congr fun n _ => ?_
  rw [List.map_flatMap]
  refine List.flatMap_congr fun q _ => ?_
  rw [List.map_map]
  rfl

/-- C190. Hence `compute_kpis` of these quantiles fails as soon as a level is not itself the name of a target, while it finds all the targets of the reconciled quantiles. -/
theorem C190_kpis (h : Hier N) (hh : h ≠ []) (names : List N) (b : N) (hb : b ∈ names) (hb' : b ∉ keys h) (out : N → QOut) (rows : N → ℕ) (steps levels targets : List L) (q : L) (hq : q ∈ levels)
    (hqt : q ∉ targets) (hs : steps ≠ []) (hout : ∀ k, out k = .array (rows k) steps.length levels.length) :
    (∃ cols, getQuantiles h names out rows steps levels .all = .ok cols ∧ lookupTargets cols targets = some .keyError) ∧ lookupTargets (reconciledCols h names targets levels) targets = none := by
  refine ⟨⟨_, C190_layout h hh names b hb hb' out rows steps levels (List.ne_nil_of_mem hq) hout, ?_⟩, ?_⟩
  · unfold lookupTargets
    rw [if_neg]
    rw [List.all_eq_true]
    intro hall
    obtain ⟨s, hs'⟩ := List.exists_mem_of_ne_nil steps hs
    have hbo : b ∈ order h names := List.mem_append.mpr (Or.inr (List.mem_filter.mpr ⟨((firsts_spec names).2 b).mpr hb, by simpa using hb'⟩))
    have := hall (b, q, s) (List.mem_flatMap.mpr ⟨b, hbo, List.mem_flatMap.mpr ⟨q, hq, List.mem_map.mpr ⟨s, hs', rfl⟩⟩⟩)
    exact hqt (of_decide_eq_true this)
  · unfold lookupTargets
    rw [if_pos]
    rw [List.all_eq_true]
    intro c hc
    obtain ⟨n, _, hc⟩ := List.mem_flatMap.mp hc
    obtain ⟨s, hs', hc⟩ := List.mem_flatMap.mp hc
    obtain ⟨q', _, rfl⟩ := List.mem_map.mp hc
    exact decide_eq_true hs'

end PyF.Kpi
