import Verif.Summary.Props
import Mathlib.Tactic.FieldSimp
import Mathlib.Tactic.Push

/-! C166 quantile metrics with masks and missing targets, C167 binning of index columns. -/

namespace PyF.Summary
open PyF

/-- C166: a forecast array `(n, m, k)` with several targets can be masked by a mask of the shape of the targets only if there are as many rows as targets, and
as many levels as targets or one level. -/
theorem C166_mask_shape (n m k : Nat) (mask : Mask) (hn : 2 ≤ n) (hm : 2 ≤ m) (hi : mask.index.length = n) (hkm : mask.m = m) :
    (∃ s, maskShape3 n m k mask = .ok s) ↔ n = m ∧ (k = m ∨ k = 1) := by
  unfold maskShape3
  simp only [hi, hkm]
  constructor
  · rintro ⟨s, hs⟩
    split at hs
    · rename_i h
      omega
    · cases hs
  · rintro ⟨h1, h2⟩
    rw [if_pos (by omega)]
    exact ⟨_, rfl⟩

/-- C166: a quantile frame with several columns per target cannot be masked together with its targets, unless the mask has one column. -/
theorem C166_mask_frame (dx dt : DF) (k : Mask) (hn : 2 ≤ dt.index.length) (hi : dx.index = dt.index) (hk : k.index = dt.index)
    (h : dx.cols.length ≠ dt.cols.length) (ms : List (String × Metric)) (idxs : Idxs) (q : Nat) (hkm : k.m ≠ 1) :
    (summaryScores (.df dx) (.df dt) ms idxs (some k) q).res = .error .valueError := by
  have hc : checkIndexes (indexes (.df dx) (.df dt) (some k)) = .ok () := by
    rw [(C168_check _).1]
    intro a ha b hb
    simp only [indexes, List.mem_append, List.mem_singleton, hi, hk] at ha hb
    rcases ha with (ha | ha) | ha <;> rcases hb with (hb | hb) | hb <;> rw [ha, hb]
  unfold summaryScores
  rw [hc]
  simp only
  by_cases h1 : k.m = dx.cols.length
  · have e1 : ∃ x', maskMul (.df dx) k = .ok x' := by
      unfold maskMul
      simp only [hk, hi, h1, and_self, true_or, if_true]
      exact ⟨_, rfl⟩
    obtain ⟨x', e1⟩ := e1
    have e2 : maskMul (.df dt) k = .error .valueError := by
      unfold maskMul
      simp only [hk]
      rw [if_neg (by omega)]
    rw [e1, e2]
  · have e1 : maskMul (.df dx) k = .error .valueError := by
      unfold maskMul
      simp only [hk, hi]
      rw [if_neg (by omega)]
    rw [e1]

/-- Rows of a group whose target is present. -/
def observed (agg : List (Option Lab)) (t : Vals) (l : Lab) (j : Nat) : List Nat := (group agg l).filter (fun (i : Nat) => (t i j).isSome)

/-- Rows of a group whose target is present and below the predicted quantile. -/
def covered (agg : List (Option Lab)) (q : Nat → Nat → ℚ) (t : Vals) (l : Lab) (j : Nat) : List Nat :=
  (group agg l).filter (fun (i : Nat) => match t i j with | some y => decide (y < q i j) | none => false)

theorem mean_ind (l : List Nat) (b : Nat → Bool) (hne : l ≠ []) :
    mean (l.map (fun (i : Nat) => some (if b i = true then (1 : ℚ) else 0))) = some (((l.filter b).length : ℚ) / l.length) := by
  have h1 : (l.map (fun (i : Nat) => some (if b i = true then (1 : ℚ) else 0))).filterMap id = l.map (fun (i : Nat) => if b i = true then (1 : ℚ) else 0) := by
    rw [List.filterMap_map]
    exact congrFun List.filterMap_eq_map l
  have h2 : (l.map (fun (i : Nat) => if b i = true then (1 : ℚ) else 0)).sum = ((l.filter b).length : ℚ) := by
    clear h1 hne
    induction l with
    | nil => rfl
    | cons a l ih =>
      rw [List.map_cons, List.sum_cons, ih, List.filter_cons]
      cases b a with
      | true => simp; ring
      | false => simp
  unfold mean
  simp only [h1, h2]
  rw [if_neg (by simpa using hne)]
  simp

/-- C166, the defect: the reliability of a level counts rows with a missing target as not covered: it is the number of covered rows over the number of all rows. -/
theorem C166_reliability (agg : List (Option Lab)) (q : Nat → Nat → ℚ) (t : Vals) (l : Lab) (j : Nat) (hne : group agg l ≠ []) :
    reliability agg q t l j = some (((covered agg q t l j).length : ℚ) / (group agg l).length) := by
  unfold reliability covered
  rw [members_eq]
  rw [← mean_ind _ _ hne]
  congr 1
  apply List.map_congr_left
  intro i _
  unfold errAlpha indicator
  cases t i j with
  | none => rfl
  | some y =>
    simp only [Option.map_some, decide_eq_true_eq]
    congr 1
    by_cases h : y < q i j
    · rw [if_pos (by linarith), if_pos h]
    · rw [if_neg (by linarith), if_neg h]

/-- C166: it is the fraction of the observed rows that are covered exactly if no target of the group is missing or no row is covered. -/
theorem C166_reliability_iff (agg : List (Option Lab)) (q : Nat → Nat → ℚ) (t : Vals) (l : Lab) (j : Nat) (hne : observed agg t l j ≠ []) :
    reliability agg q t l j = some (((covered agg q t l j).length : ℚ) / (observed agg t l j).length) ↔
      (∀ i ∈ group agg l, (t i j).isSome = true) ∨ covered agg q t l j = [] := by
  have hm : group agg l ≠ [] := by
    intro h
    apply hne
    unfold observed
    rw [h]
    rfl
  rw [C166_reliability agg q t l j hm]
  have p1 : (0 : ℚ) < (observed agg t l j).length := by exact_mod_cast List.length_pos_iff.mpr hne
  have p2 : (0 : ℚ) < (group agg l).length := by exact_mod_cast List.length_pos_iff.mpr hm
  rw [Option.some.injEq, div_eq_div_iff (ne_of_gt p2) (ne_of_gt p1)]
  constructor
  · intro h
    by_cases hc : covered agg q t l j = []
    · exact Or.inr hc
    · left
      have p3 : (0 : ℚ) < (covered agg q t l j).length := by exact_mod_cast List.length_pos_iff.mpr hc
      have he : ((observed agg t l j).length : ℚ) = (group agg l).length := mul_left_cancel₀ (ne_of_gt p3) h
      have he' : (observed agg t l j).length = (group agg l).length := by exact_mod_cast he
      unfold observed at he'
      exact List.length_filter_eq_length_iff.mp he'
  · rintro (h | h)
    · have : observed agg t l j = group agg l := by
        unfold observed
        exact List.filter_eq_self.mpr h
      rw [this]
    · rw [h]
      simp

/-- C166: the quantile score is the mean over the observed rows. -/
theorem C166_score (agg : List (Option Lab)) (alpha : ℚ) (q : Nat → Nat → ℚ) (t : Vals) (l : Lab) (j : Nat) :
    quantileScore agg alpha q t l j =
      meanQ ((observed agg t l j).map (fun (i : Nat) => let e := q i j - (t i j).getD 0; if e > 0 then (1 - alpha) * e else -alpha * e)) := by
  unfold quantileScore observed
  rw [members_eq]
  rw [← mean_some]
  congr 1
  apply List.map_congr_left
  intro i _
  unfold pinball errAlpha indicator
  cases t i j with
  | none => rfl
  | some y =>
    simp only [Option.map_some, Option.isSome_some, if_true, Option.getD_some, Option.some.injEq]
    split <;> ring

/-! Binning. -/

/-- C167: columns of integers and strings only are used as they are. -/
theorem C167_plain (cols : List IdxCol) (q : Nat) (h : ∀ c ∈ cols, c.dtype = .int64 ∨ c.dtype = .int32 ∨ c.dtype = .int8 ∨ c.dtype = .object) :
    labels cols q = .ok (cols.map (fun (c : IdxCol) => (c.name, c.vals))) := by
  unfold labels
  rw [if_neg]
  rw [List.any_eq_true]
  rintro ⟨c, hc, hp⟩
  rcases h c hc with h | h | h | h <;> simp [plain, h] at hp

/-- C167: 64-bit integer columns and columns with few different values are never binned. -/
theorem C167_kept (cols : List IdxCol) (q : Nat) (ls : List (String × List (Option Lab))) (h : labels cols q = .ok ls) (i : Nat) (c : IdxCol)
    (hc : cols[i]? = some c) (hk : c.dtype = .int64 ∨ Few c.vals q) : ls[i]? = some (c.name, c.vals) := by
  unfold labels at h
  split at h
  · obtain ⟨_, h2⟩ := Hybrid.mapM_inv _ _ _ h
    obtain ⟨b, hb, hi⟩ := h2 i c hc
    rw [hi]
    rw [if_neg] at hb
    · cases hb; rfl
    · unfold replaced
      rcases hk with hk | hk
      · simp [hk]
      · simp [(few_iff c q).2 hk]
  · cases h
    simp [hc]

/-- C167, the defect: a column of 32-bit or 8-bit integers with enough different values is used as it is when alone, and binned as soon as there is a column of
floats or booleans beside it, whatever that column contains. -/
theorem C167_companion (c f : IdxCol) (q : Nat) (hc : c.dtype = .int32 ∨ c.dtype = .int8) (hf : f.dtype = .float ∨ f.dtype = .bool) (hd : ¬ Few c.vals q) :
    labels [c] q = .ok [(c.name, c.vals)] ∧ ∃ v w, qcut c q = .ok v ∧ labels [c, f] q = .ok [(c.name, v), (f.name, w)] := by
  refine ⟨C167_plain [c] q (by intro d hd'; rw [List.mem_singleton] at hd'; subst hd'; rcases hc with h | h <;> simp [h]), ?_⟩
  have q1 : ∃ v, qcut c q = .ok v := by
    unfold qcut
    rw [if_neg (by rcases hc with h | h <;> simp [h])]
    exact ⟨_, rfl⟩
  have q2 : ∃ w, qcut f q = .ok w := by
    unfold qcut
    rw [if_neg (by rcases hf with h | h <;> simp [h])]
    exact ⟨_, rfl⟩
  obtain ⟨v, hv⟩ := q1
  obtain ⟨w, hw⟩ := q2
  have ha : ([c, f].any fun c => !plain c.dtype) = true := by
    rcases hf with h | h <;> simp [plain, h]
  have hd := not_lt.1 (fun h => hd ((few_iff c q).1 h))
  have hr : replaced q c = true := by
    unfold replaced
    rcases hc with h | h <;> simp [h, hd]
  unfold labels
  rw [if_pos ha]
  by_cases hrf : replaced q f = true
  · exact ⟨v, w, hv, by simp only [List.mapM_cons, List.mapM_nil, if_pos hr, if_pos hrf, hv, hw]; rfl⟩
  · exact ⟨v, f.vals, hv, by simp only [List.mapM_cons, List.mapM_nil, if_pos hr, if_neg hrf, hv]; rfl⟩

/-- C167, the defect: a column of strings with enough different values makes the call fail as soon as there is a column of floats or booleans. -/
theorem C167_strings_fail (cols : List IdxCol) (q : Nat) (c f : IdxCol) (hcm : c ∈ cols) (hfm : f ∈ cols) (hc : c.dtype = .object)
    (hf : f.dtype = .float ∨ f.dtype = .bool) (hd : ¬ Few c.vals q) : ∃ e, labels cols q = .error e := by
  have ha : (cols.any fun c => !plain c.dtype) = true := by
    rw [List.any_eq_true]
    exact ⟨f, hfm, by rcases hf with h | h <;> simp [plain, h]⟩
  unfold labels
  rw [if_pos ha]
  have hd := not_lt.1 (fun h => hd ((few_iff c q).1 h))
  refine Hybrid.mapM_error _ _ c hcm ⟨.typeError, ?_⟩
  rw [if_pos (by unfold replaced; simp [hc, hd])]
  unfold qcut
  rw [if_pos hc]
  rfl

/-- In a strictly increasing list the entries below `v` are the first ones. -/
theorem lt_iff_countP (es : List ℚ) (hs : es.Pairwise (· < ·)) (v : ℚ) (i : Nat) (e : ℚ) (he : es[i]? = some e) :
    e < v ↔ i < es.countP (fun e => decide (e < v)) := by
  induction es generalizing i with
  | nil => simp at he
  | cons a es ih =>
    rw [List.pairwise_cons] at hs
    rw [List.countP_cons]
    cases i with
    | zero =>
      simp only [List.getElem?_cons_zero, Option.some.injEq] at he
      subst he
      constructor
      · intro h; simp [h]
      · intro h
        by_contra hne
        have h0 : es.countP (fun e => decide (e < v)) = 0 := by
          rw [List.countP_eq_zero]
          intro b hb
          have := hs.1 b hb
          simp only [decide_eq_true_eq]
          intro hbv
          exact hne (lt_trans this hbv)
        simp [h0, hne] at h
    | succ i =>
      simp only [List.getElem?_cons_succ] at he
      rw [ih hs.2 i he]
      by_cases hav : a < v
      · simp [hav]
      · have h0 : es.countP (fun e => decide (e < v)) = 0 := by
          rw [List.countP_eq_zero]
          intro b hb
          have := hs.1 b hb
          simp only [decide_eq_true_eq]
          intro hbv
          exact hav (lt_trans this hbv)
        simp [hav, h0]

/-- The interval of a value: it contains the value, and it is open on the left except for the first one. -/
theorem binOf_spec (es : List ℚ) (hs : es.Pairwise (· < ·)) (hl : 2 ≤ es.length) (v lo0 hi0 : ℚ) (h0 : es[0]? = some lo0) (hn : es[es.length - 1]? = some hi0)
    (hv0 : lo0 ≤ v) (hv1 : v ≤ hi0) :
    ∃ (s : Nat) (lo hi : ℚ), binOf es v = some (.bin lo hi) ∧ es[s]? = some lo ∧ es[s + 1]? = some hi ∧ lo ≤ v ∧ v ≤ hi ∧ (lo = v → s = 0) := by
  unfold binOf
  by_cases hfirst : es[0]? = some v
  · simp only [if_pos hfirst]
    have e1 : es[1]? = some es[1] := List.getElem?_eq_getElem (by omega)
    refine ⟨0, v, es[1], ?_, hfirst, e1, le_refl _, ?_, fun _ => rfl⟩
    · simp [hfirst, e1]
    · have hp := List.pairwise_iff_getElem.mp hs 0 1 (by omega) (by omega) (by omega)
      have : es[0] = v := by
        have := (List.getElem?_eq_some_iff.mp hfirst).2
        exact this
      rw [this] at hp
      exact le_of_lt hp
  · simp only [if_neg hfirst]
    have hlt : lo0 < v := lt_of_le_of_ne hv0 (fun h => hfirst (by rw [h0, h]))
    set c := es.countP (fun e => decide (e < v)) with hc
    have hpos : 0 < c := (lt_iff_countP es hs v 0 lo0 h0).mp hlt
    have hub : c < es.length := by
      by_contra hge
      have : es.length - 1 < c := by omega
      have := (lt_iff_countP es hs v (es.length - 1) hi0 hn).mpr this
      exact absurd hv1 (not_le.mpr this)
    have e1 : es[c - 1]? = some es[c - 1] := List.getElem?_eq_getElem (by omega)
    have e2 : es[c]? = some es[c] := List.getElem?_eq_getElem hub
    have l1 := (lt_iff_countP es hs v (c - 1) _ e1).mpr (by omega)
    have l2 : v ≤ es[c] := by
      by_contra hlt'
      have := (lt_iff_countP es hs v c _ e2).mp (not_le.mp hlt')
      omega
    refine ⟨c - 1, es[c - 1], es[c], ?_, e1, ?_, le_of_lt l1, l2, fun h => absurd h (ne_of_lt l1)⟩
    · rw [if_neg (by omega), e1, e2]
    · rw [show c - 1 + 1 = c by omega]; exact e2

/-- Edges are strictly increasing, from the least value to the greatest. -/
theorem edges_spec (vals : List ℚ) (hne : vals ≠ []) (q : Nat) (hq : 1 ≤ q) :
    (edges vals q).Pairwise (· < ·) ∧ (edges vals q).length ≤ q + 1 ∧
    (∃ lo, (edges vals q)[0]? = some lo ∧ Quantile.Spec.IsMin vals lo) ∧
    ∃ hi, (edges vals q)[(edges vals q).length - 1]? = some hi ∧ Quantile.Spec.IsMax vals hi := by
  have hq0 : (0 : ℚ) < q := by exact_mod_cast hq
  set raw := (List.range (q + 1)).map (fun (i : Nat) => Quantile.quantileVal vals ((i : ℚ) / q)) with hraw
  have hmono : raw.Pairwise (· ≤ ·) := by
    rw [hraw, List.pairwise_map]
    refine List.Pairwise.imp_of_mem ?_ (List.pairwise_lt_range (n := q + 1))
    intro a b ha hb hab
    rw [List.mem_range] at ha hb
    apply Quantile.quantileVal_mono hne
    · positivity
    · apply div_le_div_of_nonneg_right _ (le_of_lt hq0)
      exact_mod_cast le_of_lt hab
    · rw [div_le_one hq0]
      exact_mod_cast (by omega : b ≤ q)
  have hpw : (edges vals q).Pairwise (· < ·) := by
    have h1 : (edges vals q).Pairwise (· ≤ ·) := hmono.sublist (List.dedup_sublist _)
    have h2 : (edges vals q).Pairwise (· ≠ ·) := List.nodup_dedup _
    refine List.Pairwise.imp ?_ (List.Pairwise.and h1 h2)
    rintro a b ⟨h, hn⟩
    exact lt_of_le_of_ne h hn
  obtain ⟨hmin, hmax⟩ := Quantile.C05_extremes vals hne
  have hmem : ∀ e ∈ edges vals q, ∃ (i : Nat), i ≤ q ∧ e = Quantile.quantileVal vals ((i : ℚ) / q) := by
    intro e he
    unfold edges at he
    rw [List.mem_dedup, List.mem_map] at he
    obtain ⟨i, hi, rfl⟩ := he
    rw [List.mem_range] at hi
    exact ⟨i, by omega, rfl⟩
  have hge : ∀ e ∈ edges vals q, Quantile.quantileVal vals 0 ≤ e ∧ e ≤ Quantile.quantileVal vals 1 := by
    intro e he
    obtain ⟨i, hi, rfl⟩ := hmem e he
    have b0 : (0 : ℚ) ≤ (i : ℚ) / q := by positivity
    have b1 : (i : ℚ) / q ≤ 1 := by rw [div_le_one hq0]; exact_mod_cast hi
    exact ⟨Quantile.quantileVal_mono hne (le_refl _) b0 b1, Quantile.quantileVal_mono hne b0 b1 (le_refl _)⟩
  have m0 : Quantile.quantileVal vals 0 ∈ edges vals q := by
    unfold edges
    rw [List.mem_dedup, List.mem_map]
    exact ⟨0, by simp, by simp⟩
  have m1 : Quantile.quantileVal vals 1 ∈ edges vals q := by
    unfold edges
    rw [List.mem_dedup, List.mem_map]
    exact ⟨q, by simp, by rw [div_self (ne_of_gt hq0)]⟩
  have hpos : 0 < (edges vals q).length := List.length_pos_of_mem m0
  refine ⟨hpw, ?_, ?_, ?_⟩
  · have := (List.dedup_sublist raw).length_le
    have h2 : raw.length = q + 1 := by simp [hraw]
    rw [h2] at this
    exact this
  · obtain ⟨i, hi, he⟩ := List.getElem_of_mem m0
    have e0 := List.getElem?_eq_getElem hpos
    refine ⟨_, e0, ?_⟩
    have : (edges vals q)[0] = Quantile.quantileVal vals 0 := by
      apply le_antisymm _ (hge _ (List.getElem_mem hpos)).1
      rw [← he]
      by_cases hi0 : i = 0
      · subst hi0; exact le_refl _
      · exact le_of_lt (List.pairwise_iff_getElem.mp hpw 0 i hpos hi (by omega))
    rw [this]
    exact hmin
  · obtain ⟨i, hi, he⟩ := List.getElem_of_mem m1
    have hl : (edges vals q).length - 1 < (edges vals q).length := by omega
    have e0 := List.getElem?_eq_getElem hl
    refine ⟨_, e0, ?_⟩
    have : (edges vals q)[(edges vals q).length - 1] = Quantile.quantileVal vals 1 := by
      apply le_antisymm (hge _ (List.getElem_mem hl)).2
      rw [← he]
      by_cases hi0 : i = (edges vals q).length - 1
      · subst hi0; exact le_refl _
      · exact le_of_lt (List.pairwise_iff_getElem.mp hpw i _ hi hl (by omega))
    rw [this]
    exact hmax

/-- C167: a binned column with two different numbers at least gives every number an interval that contains it; the intervals come from at most `q`, and
of two numbers in different intervals the smaller one has the interval that ends before the other begins. Missing entries stay without label. -/
theorem C167_bins (c : IdxCol) (q : Nat) (hq : 1 ≤ q) (ho : c.dtype ≠ .object) (a b : ℚ) (ha : some (Lab.num a) ∈ c.vals) (hb : some (Lab.num b) ∈ c.vals)
    (hab : a < b) :
    ∃ (v : List (Option Lab)) (bins : List (ℚ × ℚ)), qcut c q = .ok v ∧ v.length = c.vals.length ∧ bins.length ≤ q ∧
      (∀ (i : Nat), c.vals[i]? = some none → v[i]? = some none) ∧
      (∀ (i : Nat) (x : ℚ), c.vals[i]? = some (some (.num x)) → ∃ lo hi, v[i]? = some (some (.bin lo hi)) ∧ (lo, hi) ∈ bins ∧ lo ≤ x ∧ x ≤ hi) ∧
      ∀ (i i' : Nat) (x y lo hi lo' hi' : ℚ), c.vals[i]? = some (some (.num x)) → c.vals[i']? = some (some (.num y)) → x ≤ y →
        v[i]? = some (some (.bin lo hi)) → v[i']? = some (some (.bin lo' hi')) → (lo = lo' ∧ hi = hi') ∨ hi ≤ lo' := by
  set vals := c.vals.filterMap (fun (o : Option Lab) => o.bind numOf) with hvals
  have hmem : ∀ (x : ℚ), some (Lab.num x) ∈ c.vals → x ∈ vals := by
    intro x hx
    rw [hvals, List.mem_filterMap]
    exact ⟨_, hx, rfl⟩
  have hne : vals ≠ [] := List.ne_nil_of_mem (hmem a ha)
  obtain ⟨hpw, hlen, ⟨lo0, h0, hmin⟩, hi0, hn, hmax⟩ := edges_spec vals hne q hq
  set es := edges vals q with hes
  have hl2 : 2 ≤ es.length := by
    by_contra hlt
    have hpos : 0 < es.length := (List.getElem?_eq_some_iff.mp h0).1
    have h1 : es.length - 1 = 0 := by omega
    rw [h1, h0] at hn
    injection hn with hn
    have q1 := hmin.2 a (hmem a ha)
    have q2 := hmax.2 b (hmem b hb)
    rw [hn] at q1
    linarith
  have hbin : ∀ x : ℚ, x ∈ vals → ∃ (s : Nat) (lo hi : ℚ), binOf es x = some (.bin lo hi) ∧ es[s]? = some lo ∧ es[s + 1]? = some hi ∧ lo ≤ x ∧ x ≤ hi ∧ (lo = x → s = 0) :=
    fun x hx => binOf_spec es hpw hl2 x lo0 hi0 h0 hn (hmin.2 x hx) (hmax.2 x hx)
  have hlab : ∀ (i : Nat) (x : ℚ), c.vals[i]? = some (some (.num x)) → (c.vals.map (fun (o : Option Lab) => (o.bind numOf).bind (binOf es)))[i]? = some (binOf es x) := by
    intro i x hx
    rw [List.getElem?_map, hx]
    rfl
  refine ⟨c.vals.map (fun (o : Option Lab) => (o.bind numOf).bind (binOf es)), es.zip es.tail, ?_, by simp, ?_, ?_, ?_, ?_⟩
  · unfold qcut
    rw [if_neg ho]
  · simp; omega
  · intro i hi
    rw [List.getElem?_map, hi]
    rfl
  · intro i x hx
    obtain ⟨s, lo, hi, e1, e2, e3, e4, e5, _⟩ := hbin x (hmem x (List.mem_of_getElem? hx))
    refine ⟨lo, hi, by rw [hlab i x hx, e1], ?_, e4, e5⟩
    apply List.mem_of_getElem? (i := s)
    rw [List.getElem?_zip_eq_some]
    refine ⟨e2, ?_⟩
    rw [List.getElem?_tail]
    exact e3
  · intro i i' x y lo hi lo' hi' hx hy hxy hv hv'
    rw [hlab i x hx] at hv
    rw [hlab i' y hy] at hv'
    injection hv with hv
    injection hv' with hv'
    obtain ⟨s, l1, u1, e1, e2, e3, e4, e5, e6⟩ := hbin x (hmem x (List.mem_of_getElem? hx))
    obtain ⟨s', l1', u1', e1', e2', e3', e4', e5', e6'⟩ := hbin y (hmem y (List.mem_of_getElem? hy))
    rw [e1] at hv
    rw [e1'] at hv'
    injection hv with hv
    injection hv' with hv'
    injection hv with g1 g2
    injection hv' with g3 g4
    subst g1 g2 g3 g4
    have hs1 := List.getElem?_eq_some_iff.mp e2
    have hs2 := List.getElem?_eq_some_iff.mp e3
    have hs1' := List.getElem?_eq_some_iff.mp e2'
    have hs2' := List.getElem?_eq_some_iff.mp e3'
    obtain ⟨b1, b2⟩ := hs1
    obtain ⟨b3, b4⟩ := hs2
    obtain ⟨b1', b2'⟩ := hs1'
    obtain ⟨b3', b4'⟩ := hs2'
    rcases lt_trichotomy s s' with h | h | h
    · right
      rw [← b4, ← b2']
      by_cases hss : s + 1 = s'
      · subst hss; exact le_refl _
      · exact le_of_lt (List.pairwise_iff_getElem.mp hpw _ _ b3 b1' (by omega))
    · subst h
      left
      rw [e2] at e2'
      rw [e3] at e3'
      injection e2' with e2'
      injection e3' with e3'
      exact ⟨e2', e3'⟩
    · exfalso
      have hle : u1' ≤ l1 := by
        rw [← b4', ← b2]
        by_cases hss : s' + 1 = s
        · subst hss; exact le_refl _
        · exact le_of_lt (List.pairwise_iff_getElem.mp hpw _ _ b3' b1 (by omega))
      have : l1 = x := by linarith
      have := e6 this
      omega

end PyF.Summary
