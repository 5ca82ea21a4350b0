import Verif.Summary.Lemmas

/-! C165 masks, C168 pairing of rows, C169 pairing of columns, C170 names of metrics. -/

namespace PyF.Summary
open PyF

/-- C165: entries that are masked out have no influence on any score, whatever metrics and index columns. -/
theorem C165_masked_out (dx dx' dt dt' : DF) (k : Mask) (hx : dx'.index = dx.index ∧ dx'.cols = dx.cols) (ht : dt'.index = dt.index ∧ dt'.cols = dt.cols)
    (hi : dx.index = dt.index) (hk : k.index = dt.index) (h : dx.cols.length = dt.cols.length) (hkm : k.m = dt.cols.length)
    (hv : ∀ i j, i < dt.index.length → j < dt.cols.length → k.val i j = true → dx'.val i j = dx.val i j ∧ dt'.val i j = dt.val i j)
    (ms : List (String × Metric)) (idxs : Idxs) (q : Nat) :
    summaryScores (.df dx') (.df dt') ms idxs (some k) q = summaryScores (.df dx) (.df dt) ms idxs (some k) q := by
  have key : ∀ d d' : DF, d'.index = d.index → d'.cols = d.cols → d.index = dt.index → d.cols.length = dt.cols.length →
      (∀ i j, i < dt.index.length → j < dt.cols.length → k.val i j = true → d'.val i j = d.val i j) → d'.masked k = d.masked k := by
    intro d d' e1 e2 e3 e4 hvv
    obtain ⟨di, dc, dv⟩ := d
    obtain ⟨di', dc', dv'⟩ := d'
    simp only at e1 e2 e3 e4 hvv
    subst e1 e2
    unfold DF.masked
    simp only [DF.mk.injEq, true_and]
    funext i j
    by_cases hij : i < di'.length ∧ j < dc'.length
    · simp only [if_pos hij]
      have e5 : (if k.index.length = 1 then 0 else i) = i := by
        split
        · rw [hk] at *; rw [e3] at hij; omega
        · rfl
      have e6 : (if k.m = 1 then 0 else j) = j := by
        split
        · omega
        · rfl
      rw [e5, e6]
      split
      · rename_i hm
        exact hvv i j (by rw [← e3]; exact hij.1) (by rw [← e4]; exact hij.2) hm
      · rfl
    · simp only [if_neg hij]
  cases hl : labels idxs.cols q with
  | ok ls =>
    rw [summaryScores_mask dx dt k hi hk h hkm ms idxs q ls hl,
      summaryScores_mask dx' dt' k (by rw [hx.1, ht.1, hi]) (by rw [ht.1, hk]) (by rw [hx.2, ht.2, h]) (by rw [ht.2, hkm]) ms idxs q ls hl,
      key dx dx' hx.1 hx.2 hi h (fun i j h1 h2 h3 => (hv i j h1 h2 h3).1), key dt dt' ht.1 ht.2 rfl rfl (fun i j h1 h2 h3 => (hv i j h1 h2 h3).2), hx.2]
  | error e =>
    have gen : ∀ a b : DF, a.index = dt.index → b.index = dt.index → a.cols.length = dt.cols.length → b.cols.length = dt.cols.length →
        summaryScores (.df a) (.df b) ms idxs (some k) q = ⟨some a.cols, .error e⟩ := by
      intro a b e1 e2 e3 e4
      unfold summaryScores indexes checkIndexes maskMul
      simp only [e1, e2, e3, e4, hk, hkm, List.cons_append, List.nil_append, List.any_cons, List.any_nil, ne_eq, not_true_eq_false, decide_false, Bool.or_false,
        Bool.false_eq_true, if_false, and_self, true_or, if_true, hl, Arg.cols]
    rw [gen dx dt hi rfl h rfl, gen dx' dt' (by rw [hx.1, hi]) ht.1 (by rw [hx.2, h]) (by rw [ht.2]), hx.2]

/-- Plain mean. -/
def meanQ (l : List ℚ) : Cell := if l = [] then none else some (l.sum / l.length)

theorem mean_some (l : List Nat) (f : Nat → ℚ) (b : Nat → Bool) :
    mean (l.map (fun (i : Nat) => if b i = true then some (f i) else none)) = meanQ ((l.filter (fun (i : Nat) => b i)).map f) := by
  have : (l.map (fun (i : Nat) => if b i = true then some (f i) else none)).filterMap id = (l.filter (fun (i : Nat) => b i)).map f := by
    induction l with
    | nil => rfl
    | cons a l ih =>
      rw [List.map_cons, List.filterMap_cons]
      cases hb : b a with
      | true => simp only [if_true, id, List.filter_cons, hb, List.map_cons]; exact congrArg _ ih
      | false => simp only [Bool.false_eq_true, if_false, id, List.filter_cons, hb]; exact ih
  unfold mean meanQ
  simp only [this]

/-- C165: with one integer index column the mean squared error of a group is the mean over its rows that are not masked out, and missing exactly if
there are none. -/
theorem C165_value (index : List ℤ) (cx ct : List String) (fx ft : Nat → Nat → ℚ) (k : Mask) (hk : k.index = index) (hc : cx.length = ct.length)
    (hkm : k.m = ct.length) (ci : IdxCol) (hd : ci.dtype = .int64) (hlen : ci.vals.length = index.length) (ii : List ℤ) (q : Nat) (nm : String) :
    ∃ s, (summaryScores (.df ⟨index, cx, fun i j => some (fx i j)⟩) (.df ⟨index, ct, fun i j => some (ft i j)⟩) [(nm, .rmse)] ⟨ii, [ci]⟩ (some k) q).res =
        .ok [(nm, [(ci.name, s)])] ∧ s.overRows = true ∧
      ∀ l j, j < ct.length → s.val l j = meanQ (((group ci.vals l).filter (fun (i : Nat) => k.val i j)).map (fun (i : Nat) => (fx i j - ft i j) ^ 2)) := by
  have hl : labels [ci] q = .ok [(ci.name, ci.vals)] := by
    unfold labels plain
    simp [hd]
  rw [summaryScores_mask ⟨index, cx, fun i j => some (fx i j)⟩ ⟨index, ct, fun i j => some (ft i j)⟩ k rfl hk hc hkm _ ⟨ii, [ci]⟩ q _ hl]
  simp only [pureMetrics, pureIdx, pure1, aggregate]
  have e0 : (DF.masked ⟨index, cx, fun i j => some (fx i j)⟩ k).index.length = ci.vals.length := hlen.symm
  simp only [if_pos e0, assign]
  refine ⟨_, rfl, rfl, ?_⟩
  intro l j hj
  simp only
  rw [← members_eq, ← mean_some]
  congr 1
  apply List.map_congr_left
  intro i hi
  have hi' : i < index.length := by
    unfold members at hi
    rw [List.mem_filter, List.mem_range, hlen] at hi
    exact hi.1
  have e5 : (if k.index.length = 1 then 0 else i) = i := by
    rw [hk]; split
    · omega
    · rfl
  have e6 : (if k.m = 1 then 0 else j) = j := by
    split
    · omega
    · rfl
  simp only [errTable, DF.masked, hi', hc, hj, and_self, if_true, e5, e6]
  cases k.val i j <;> simp [lift2]

/-- C165: the same without mask. -/
theorem C165_value_unmasked (index : List ℤ) (cx ct : List String) (fx ft : Nat → Nat → ℚ) (hc : cx.length = ct.length)
    (ci : IdxCol) (hd : ci.dtype = .int64) (hlen : ci.vals.length = index.length) (ii : List ℤ) (q : Nat) (nm : String) :
    ∃ s, (summaryScores (.df ⟨index, cx, fun i j => some (fx i j)⟩) (.df ⟨index, ct, fun i j => some (ft i j)⟩) [(nm, .rmse)] ⟨ii, [ci]⟩ none q).res =
        .ok [(nm, [(ci.name, s)])] ∧ s.overRows = true ∧
      ∀ l j, s.val l j = meanQ ((group ci.vals l).map (fun (i : Nat) => (fx i j - ft i j) ^ 2)) := by
  have hl : labels [ci] q = .ok [(ci.name, ci.vals)] := by
    unfold labels plain
    simp [hd]
  rw [summaryScores_df ⟨index, cx, fun i j => some (fx i j)⟩ ⟨index, ct, fun i j => some (ft i j)⟩ rfl hc _ ⟨ii, [ci]⟩ q _ hl]
  simp only [pureMetrics, pureIdx, pure1, aggregate, if_pos hlen.symm, assign]
  refine ⟨_, rfl, rfl, ?_⟩
  intro l j
  rw [← members_eq]
  have := mean_some (members ci.vals l) (fun (i : Nat) => (fx i j - ft i j) ^ 2) (fun _ => true)
  simp only [if_true, List.filter_true] at this
  rw [← this]
  rfl

/-- C168: frames of the same length pass the check exactly if they have the same time stamps in the same order; time stamps of different number are a
`ValueError`. -/
theorem C168_check (l : List (List ℤ)) :
    (checkIndexes l = .ok () ↔ ∀ a ∈ l, ∀ b ∈ l, a = b) ∧
    (checkIndexes l = .error .valueError ↔ ∃ a ∈ l, ∃ b ∈ l, a.length ≠ b.length) := by
  unfold checkIndexes
  by_cases h1 : ∃ a ∈ l, ∃ b ∈ l, a.length ≠ b.length
  · have e1 : (l.any fun a => l.any fun b => decide (a.length ≠ b.length)) = true := by
      simpa [List.any_eq_true] using h1
    rw [if_pos e1]
    refine ⟨⟨fun h => (by cases h), fun h => ?_⟩, ⟨fun _ => h1, fun _ => rfl⟩⟩
    obtain ⟨a, ha, b, hb, hne⟩ := h1
    exact absurd (by rw [h a ha b hb]) hne
  · have e1 : ¬ (l.any fun a => l.any fun b => decide (a.length ≠ b.length)) = true := by
      intro h
      apply h1
      simpa [List.any_eq_true] using h
    rw [if_neg e1]
    by_cases h2 : ∃ a ∈ l, ∃ b ∈ l, a ≠ b
    · have e2 : (l.any fun a => l.any fun b => decide (a ≠ b)) = true := by
        simpa [List.any_eq_true] using h2
      rw [if_pos e2]
      refine ⟨⟨fun h => (by cases h), fun h => ?_⟩, ⟨fun h => (by cases h), fun h => absurd h h1⟩⟩
      obtain ⟨a, ha, b, hb, hne⟩ := h2
      exact absurd (h a ha b hb) hne
    · have e2 : ¬ (l.any fun a => l.any fun b => decide (a ≠ b)) = true := by
        intro h
        apply h2
        simpa [List.any_eq_true] using h
      rw [if_neg e2]
      refine ⟨⟨fun _ a ha b hb => ?_, fun _ => rfl⟩, ⟨fun h => (by cases h), fun h => absurd h h1⟩⟩
      by_contra hne
      exact h2 ⟨a, ha, b, hb, hne⟩

/-- C168: forecasts and targets with different time stamps are refused, with and without mask, and nothing is changed. -/
theorem C168_refused (dx dt : DF) (h : dx.index ≠ dt.index) (ms : List (String × Metric)) (idxs : Idxs) (mask : Option Mask) (q : Nat) :
    ∃ e, summaryScores (.df dx) (.df dt) ms idxs mask q = ⟨some dx.cols, .error e⟩ ∧ (e = .valueError ∨ e = .assertionError) := by
  have hc : checkIndexes (indexes (.df dx) (.df dt) mask) ≠ .ok () := by
    intro hok
    have := ((C168_check _).1.mp hok) dx.index (by simp [indexes]) dt.index (by simp [indexes])
    exact h this
  cases he : checkIndexes (indexes (.df dx) (.df dt) mask) with
  | ok u => exact absurd he hc
  | error e =>
    refine ⟨e, ?_, ?_⟩
    · unfold summaryScores
      rw [he]
      rfl
    · unfold checkIndexes at he
      split at he
      · cases he; exact Or.inl rfl
      · split at he
        · cases he; exact Or.inr rfl
        · cases he

/-- C168, the defect: the time stamps of the index columns are not used; rows are paired with labels by position. -/
theorem C168_labels_by_position (x t : Arg) (ms : List (String × Metric)) (idxs : Idxs) (index' : List ℤ) (mask : Option Mask) (q : Nat) :
    summaryScores x t ms { idxs with index := index' } mask q = summaryScores x t ms idxs mask q := rfl

/-- C169: with two frames and no mask the caller's forecast has the column labels of the targets afterwards; with a mask it is unchanged. -/
theorem C169_relabelled (dx dt : DF) (hi : dx.index = dt.index) (h : dx.cols.length = dt.cols.length) (ms : List (String × Metric)) (idxs : Idxs) (q : Nat)
    (ls : List (String × List (Option Lab))) (hl : labels idxs.cols q = .ok ls) (hne : ls ≠ []) (hm : ms ≠ []) :
    (summaryScores (.df dx) (.df dt) ms idxs none q).xcols = some dt.cols ∧
    ∀ k, k.index = dt.index → k.m = dt.cols.length → (summaryScores (.df dx) (.df dt) ms idxs (some k) q).xcols = some dx.cols := by
  refine ⟨?_, ?_⟩
  · rw [summaryScores_df dx dt hi h ms idxs q ls hl]
    simp [hne, hm]
  · intro k hk hkm
    rw [summaryScores_mask dx dt k hi hk h hkm ms idxs q ls hl]

/-- C169: columns are paired by position: the column labels of the forecast have no influence on the scores. -/
theorem C169_by_position (dx dt : DF) (c : List String) (hi : dx.index = dt.index) (h : dx.cols.length = dt.cols.length) (hc : c.length = dx.cols.length)
    (ms : List (String × Metric)) (idxs : Idxs) (q : Nat) :
    (summaryScores (.df (dx.relabel c)) (.df dt) ms idxs none q).res = (summaryScores (.df dx) (.df dt) ms idxs none q).res := by
  cases hl : labels idxs.cols q with
  | ok ls =>
    rw [summaryScores_df dx dt hi h ms idxs q ls hl, summaryScores_df (dx.relabel c) dt hi (by simp [DF.relabel, hc, h]) ms idxs q ls hl]
    exact pureMetrics_relabel _ _ _ _ _ _
  | error e =>
    have gen : ∀ a : DF, a.index = dt.index → (summaryScores (.df a) (.df dt) ms idxs none q).res = .error e := by
      intro a ha
      unfold summaryScores indexes checkIndexes
      simp only [ha, List.cons_append, List.nil_append, List.any_cons, List.any_nil, ne_eq, not_true_eq_false, decide_false, Bool.or_false, Bool.false_eq_true,
        if_false, hl]
    rw [gen dx hi, gen (dx.relabel c) hi]

/-- C169: a forecast frame with another number of columns than the targets is refused. -/
theorem C169_width (dx dt : DF) (hi : dx.index = dt.index) (h : dx.cols.length ≠ dt.cols.length) (nm : String) (k : Metric) (ms : List (String × Metric)) (idxs : Idxs) (q : Nat)
    (ls : List (String × List (Option Lab))) (hl : labels idxs.cols q = .ok ls) (hne : ls ≠ []) :
    summaryScores (.df dx) (.df dt) ((nm, k) :: ms) idxs none q = ⟨some dx.cols, .error .valueError⟩ := by
  unfold summaryScores indexes checkIndexes
  simp only [hi, List.cons_append, List.nil_append, List.any_cons, List.any_nil, ne_eq, not_true_eq_false, decide_false, Bool.or_false, Bool.false_eq_true,
    if_false, hl]
  cases ls with
  | nil => exact absurd rfl hne
  | cons p ls =>
    simp only [metricLoop, idxLoop, summaryScore, prepare, if_neg h]
    rfl

theorem mem_assign {V : Type} (d : List (String × V)) (k : String) (v : V) (a : String) (b : V) :
    (a, b) ∈ assign d k v ↔ (a = k ∧ b = v) ∨ (a ≠ k ∧ (a, b) ∈ d) := by
  unfold assign
  split
  · rename_i h
    rw [List.mem_map]
    constructor
    · rintro ⟨e, he, heq⟩
      split at heq
      · cases heq; exact Or.inl ⟨rfl, rfl⟩
      · rename_i hne; subst heq; exact Or.inr ⟨hne, he⟩
    · rintro (⟨rfl, rfl⟩ | ⟨hne, hm⟩)
      · rw [List.mem_map] at h
        obtain ⟨e, he, hk⟩ := h
        exact ⟨e, he, by rw [if_pos hk]⟩
      · exact ⟨(a, b), hm, by simp [hne]⟩
  · rename_i h
    rw [List.mem_append, List.mem_singleton, Prod.mk.injEq]
    constructor
    · rintro (hm | heq)
      · by_cases hk : a = k
        · subst hk; exact absurd (List.mem_map_of_mem hm) h
        · exact Or.inr ⟨hk, hm⟩
      · exact Or.inl heq
    · rintro (heq | ⟨_, hm⟩)
      · exact Or.inr heq
      · exact Or.inl hm

/-- The result has under each name the scores of the last metric of that name and nothing else. -/
theorem names_last (dx dt : DF) (ls : List (String × List (Option Lab))) (acc : List (String × List (String × Score))) (ms : List (String × Metric))
    (out : List (String × List (String × Score))) (h : pureMetrics dx dt ls acc ms = .ok out) (nm : String) (s : List (String × Score)) :
    (nm, s) ∈ out ↔ (∃ pre k post, ms = pre ++ (nm, k) :: post ∧ (∀ p ∈ post, p.1 ≠ nm) ∧ pureIdx dx dt k ls = .ok s) ∨
      ((∀ p ∈ ms, p.1 ≠ nm) ∧ (nm, s) ∈ acc) := by
  induction ms generalizing acc with
  | nil =>
    simp only [pureMetrics, Except.ok.injEq] at h
    subst h
    simp
  | cons p ms ih =>
    obtain ⟨nm', k'⟩ := p
    simp only [pureMetrics] at h
    cases hp : pureIdx dx dt k' ls with
    | error e => rw [hp] at h; cases h
    | ok o =>
      rw [hp] at h
      cases o with
      | nil => cases h
      | cons s1 ss =>
        simp only at h
        rw [ih _ h, mem_assign]
        constructor
        · rintro (⟨pre, k, post, e, hpost, hs⟩ | ⟨hall, (⟨rfl, rfl⟩ | ⟨hne, hm⟩)⟩)
          · exact Or.inl ⟨(nm', k') :: pre, k, post, by rw [e]; rfl, hpost, hs⟩
          · exact Or.inl ⟨[], k', ms, rfl, hall, hp⟩
          · refine Or.inr ⟨?_, hm⟩
            intro p hpm
            rcases List.mem_cons.mp hpm with rfl | hpm
            · exact fun h => hne h.symm
            · exact hall p hpm
        · rintro (⟨pre, k, post, e, hpost, hs⟩ | ⟨hall, hm⟩)
          · cases pre with
            | nil =>
              simp only [List.nil_append, List.cons.injEq, Prod.mk.injEq] at e
              obtain ⟨⟨rfl, rfl⟩, rfl⟩ := e
              rw [hp] at hs
              cases hs
              exact Or.inr ⟨hpost, Or.inl ⟨rfl, rfl⟩⟩
            | cons a pre =>
              simp only [List.cons_append, List.cons.injEq] at e
              exact Or.inl ⟨pre, k, post, e.2, hpost, hs⟩
          · exact Or.inr ⟨fun p hpm => hall p (by simp [hpm]), Or.inr ⟨fun h => hall (nm', k') (by simp) h.symm, hm⟩⟩

theorem pureIdx_ne_nil (dx dt : DF) (k : Metric) (ls : List (String × List (Option Lab))) (hne : ls ≠ []) : pureIdx dx dt k ls ≠ .ok [] := by
  cases ls with
  | nil => exact absurd rfl hne
  | cons p ls =>
    simp only [pureIdx]
    split
    · simp
    · split <;> simp

/-- C170 for whole calls: under a name are the scores that a call with the last metric of that name alone would give. -/
theorem C170_same_name (dx dt : DF) (hi : dx.index = dt.index) (h : dx.cols.length = dt.cols.length) (ms : List (String × Metric)) (idxs : Idxs) (q : Nat)
    (ls : List (String × List (Option Lab))) (hl : labels idxs.cols q = .ok ls) (hne : ls ≠ []) (out : List (String × List (String × Score)))
    (hr : (summaryScores (.df dx) (.df dt) ms idxs none q).res = .ok out) (nm : String) (s : List (String × Score)) :
    (nm, s) ∈ out ↔ ∃ pre k post, ms = pre ++ (nm, k) :: post ∧ (∀ p ∈ post, p.1 ≠ nm) ∧
      (summaryScores (.df dx) (.df dt) [(nm, k)] idxs none q).res = .ok [(nm, s)] := by
  have key : ∀ k, (summaryScores (.df dx) (.df dt) [(nm, k)] idxs none q).res = .ok [(nm, s)] ↔ pureIdx dx dt k ls = .ok s := by
    intro k
    rw [summaryScores_df dx dt hi h _ idxs q ls hl]
    simp only [pureMetrics]
    have hn := pureIdx_ne_nil dx dt k ls hne
    cases hp : pureIdx dx dt k ls with
    | error e => simp
    | ok o =>
      cases o with
      | nil => exact absurd hp hn
      | cons a o => simp [assign]
  rw [summaryScores_df dx dt hi h ms idxs q ls hl] at hr
  rw [names_last dx dt ls [] ms out hr nm s]
  simp only [key]
  simp

end PyF.Summary
