import Verif.Fmt.Model
import Verif.Transform.Causal
import Mathlib.Data.List.Nodup

namespace PyF.Fmt
open PyF.Names PyF.Transform

variable {I : Type} [DecidableEq I]

/-! ### Specification -/

/-- Row `t` has no missing value in any of the columns. -/
def Complete (cols : List (Str × Col)) (t : Nat) : Prop := ∀ p ∈ cols, ∃ v : ℚ, p.2[t]? = some (some v)

instance (c : Col) (t : Nat) : Decidable (∃ v : ℚ, c[t]? = some (some v)) :=
  match h : c[t]? with
  | some (some v) => isTrue ⟨v, rfl⟩
  | some none => isFalse (by rintro ⟨v, hv⟩; cases hv)
  | none => isFalse (by rintro ⟨v, hv⟩; cases hv)

instance (cols : List (Str × Col)) (t : Nat) : Decidable (Complete cols t) := by
  unfold Complete; infer_instance

/-- The entries of a list at the given positions. -/
def rowsAt {α : Type} (P : List Nat) (l : List α) : List α := P.filterMap (fun t => l[t]?)

/-- The frame restricted to the given row positions. -/
def atRows (P : List Nat) (x : IFrame I) : IFrame I :=
  { index := rowsAt P x.index, cols := x.cols.map (fun p => (p.1, rowsAt P p.2)) }

/-- Every column has `n` rows. -/
def WF (n : Nat) (cols : List (Str × Col)) : Prop := ∀ p ∈ cols, p.2.length = n

/-! ### Lemmas -/

omit [DecidableEq I] in
theorem keep_range {α : Type} (f : Nat → Bool) (l : List α) (n : Nat) (hn : l.length = n) :
    keep ((List.range n).map f) l = rowsAt ((List.range n).filter f) l := by
  subst hn
  induction l generalizing f with
  | nil => rfl
  | cons a l ih =>
    have h := ih (fun k => f (k + 1))
    unfold rowsAt at h ⊢
    rw [List.length_cons, List.range_succ_eq_map, List.map_cons, List.map_map, List.filter_cons, List.filter_map]
    have e : f ∘ Nat.succ = fun k => f (k + 1) := rfl
    rw [e]
    cases hf : f 0 with
    | true =>
      simp only [keep, if_true, List.filterMap_cons, List.getElem?_cons_zero, List.filterMap_map]
      rw [h]
      congr 1
    | false =>
      simp only [keep, Bool.false_eq_true, if_false, List.filterMap_map]
      rw [h]
      congr 1

omit [DecidableEq I] in
theorem notNa_eq (n : Nat) (cols : List (Str × Col)) :
    notNa n cols = (List.range n).map (fun t => decide (Complete cols t)) := by
  unfold notNa
  apply List.map_congr_left
  intro t _
  rw [Bool.eq_iff_iff]
  simp only [List.all_eq_true, decide_eq_true_eq]
  unfold Complete
  constructor
  · intro h p hp
    have := h p hp
    cases he : p.2[t]? with
    | none => rw [he] at this; simp at this
    | some o =>
      cases o with
      | none => rw [he] at this; simp at this
      | some v => exact ⟨v, rfl⟩
  · intro h p hp
    obtain ⟨v, hv⟩ := h p hp
    rw [hv]; rfl

theorem shift_WF (n : Nat) (tr : Transformer) (a : Agg) (dt : Nat) (nm : Str) (c : Col) (hc : c.length = n) :
    WF n (genCols tr a dt nm c) := by
  have hb : WF n (Transform.baseCols tr a dt nm c) := by
    intro p hp
    unfold Transform.baseCols at hp
    split at hp
    · simp only [List.mem_singleton] at hp; subst hp; exact hc
    · simp only [List.mem_map] at hp
      obtain ⟨f, _, rfl⟩ := hp
      rw [rolling_length]; exact hc
  intro p hp
  unfold genCols at hp
  split at hp
  · exact hb p hp
  · simp only [List.mem_flatMap, List.mem_map] at hp
    obtain ⟨l, _, q, hq, rfl⟩ := hp
    rw [shift_length]; exact hb q hq

theorem get_WF {n : Nat} {F : Frame} (h : WF n F.cols) (nm : Str) (hin : F.cols.any (fun p => p.1 = nm) = true) :
    (F.get nm).length = n := by
  unfold Frame.get
  cases hf : F.cols.find? (fun p => p.1 = nm) with
  | none =>
    rw [List.find?_eq_none] at hf
    rw [List.any_eq_true] at hin
    obtain ⟨p, hp, hpe⟩ := hin
    exact absurd hpe (hf p hp)
  | some p => exact h p (List.mem_of_find?_eq_some hf)

theorem transform_WF {n : Nat} {tr tr' : Transformer} {aug : Bool} {F F' : Frame} {ms : List Meta} (h : WF n F.cols)
    (ht : transform tr aug F = .ok (tr', F', ms)) : WF n F'.cols ∧ F'.dt = F.dt := by
  unfold transform at ht
  split at ht
  · rename_i hall
    split at ht
    · cases ht
    · injection ht with ht
      simp only [Prod.mk.injEq] at ht
      obtain ⟨-, rfl, -⟩ := ht
      refine ⟨?_, rfl⟩
      intro p hp
      rcases List.mem_append.1 hp with hp | hp
      · cases aug
        · cases hp
        · exact h p hp
      · rw [List.mem_flatMap] at hp
        obtain ⟨nm, hnm, hp⟩ := hp
        rw [List.all_eq_true] at hall
        exact shift_WF n _ _ _ _ _ (get_WF h nm (hall nm hnm)) p hp
  · cases ht

theorem applyAll_WF {n : Nat} {trs trs' : List Transformer} {F F' : Frame} (h : WF n F.cols)
    (ht : applyAll trs F = .ok (trs', F')) : WF n F'.cols ∧ F'.dt = F.dt := by
  induction trs generalizing F trs' F' with
  | nil => simp only [applyAll, Except.ok.injEq, Prod.mk.injEq] at ht; obtain ⟨_, rfl⟩ := ht; exact ⟨h, rfl⟩
  | cons tr trs ih =>
    unfold applyAll at ht
    cases h1 : transform tr true F with
    | error e => rw [h1] at ht; cases ht
    | ok r =>
      obtain ⟨tr1, F1, ms⟩ := r
      rw [h1] at ht
      simp only at ht
      cases h2 : applyAll trs F1 with
      | error e => rw [h2] at ht; cases ht
      | ok r =>
        obtain ⟨trs2, F2⟩ := r
        rw [h2] at ht
        simp only [Except.ok.injEq, Prod.mk.injEq] at ht
        obtain ⟨_, rfl⟩ := ht
        have hw := transform_WF h h1
        have := ih hw.1 h2
        exact ⟨this.1, this.2.trans hw.2⟩

theorem targetCols_WF {n : Nat} {trs trs' : List Transformer} {F : Frame} {T : List (Str × Col)} (h : WF n F.cols)
    (ht : targetCols trs F = .ok (trs', T)) : WF n T := by
  induction trs generalizing trs' T with
  | nil => simp only [targetCols, Except.ok.injEq, Prod.mk.injEq] at ht; obtain ⟨_, rfl⟩ := ht; intro p hp; cases hp
  | cons tr trs ih =>
    unfold targetCols at ht
    cases h1 : transform tr false F with
    | error e => rw [h1] at ht; cases ht
    | ok r =>
      obtain ⟨tr1, F1, ms⟩ := r
      rw [h1] at ht
      simp only at ht
      cases h2 : targetCols trs F with
      | error e => rw [h2] at ht; cases ht
      | ok r =>
        obtain ⟨trs2, T2⟩ := r
        rw [h2] at ht
        simp only [Except.ok.injEq, Prod.mk.injEq] at ht
        obtain ⟨_, rfl⟩ := ht
        intro p hp
        rcases List.mem_append.1 hp with hp | hp
        · exact (transform_WF h h1).1 p hp
        · exact ih h2 p hp

theorem newCols_WF {n : Nat} (F : Frame) (cols : List (Str × Col)) (h : WF n cols) : WF n (newCols F cols) :=
  fun p hp => h p (List.mem_of_mem_filter hp)

omit [DecidableEq I] in
theorem keepRows_range (f : Nat → Bool) (n : Nat) (x : IFrame I) (hi : x.index.length = n) (hc : WF n x.cols) :
    x.keepRows ((List.range n).map f) = atRows ((List.range n).filter f) x := by
  unfold IFrame.keepRows atRows
  rw [keep_range f x.index n hi]
  congr 1
  apply List.map_congr_left
  intro p hp
  rw [keep_range f p.2 n (hc p hp)]

omit [DecidableEq I] in
theorem rowsAt_valid {α : Type} (P : List Nat) (l : List α) (hP : ∀ t ∈ P, t < l.length) :
    (rowsAt P l).length = P.length ∧ ∀ (k t : Nat), P[k]? = some t → (rowsAt P l)[k]? = l[t]? := by
  induction P with
  | nil => exact ⟨rfl, fun k t h => by simp at h⟩
  | cons p P ih =>
    have hp := hP p List.mem_cons_self
    obtain ⟨h1, h2⟩ := ih (fun t ht => hP t (List.mem_cons_of_mem _ ht))
    have e : rowsAt (p :: P) l = l[p] :: rowsAt P l := by
      unfold rowsAt
      rw [List.filterMap_cons, List.getElem?_eq_getElem hp]
    refine ⟨by rw [e, List.length_cons, h1, List.length_cons], ?_⟩
    intro k t hk
    rw [e]
    cases k with
    | zero => simp at hk; subst hk; simp [List.getElem?_eq_getElem hp]
    | succ k => simp at hk ⊢; exact h2 k t hk

theorem rowsAt_mem_iff (idx : List I) (hnd : idx.Nodup) (P : List Nat) (hP : ∀ t ∈ P, t < idx.length) (t : Nat)
    (ht : t < idx.length) : idx[t] ∈ rowsAt P idx ↔ t ∈ P := by
  unfold rowsAt
  rw [List.mem_filterMap]
  constructor
  · rintro ⟨s, hs, he⟩
    have hs' := hP s hs
    rw [List.getElem?_eq_getElem hs'] at he
    have := (List.Nodup.getElem_inj_iff hnd).1 (Option.some.inj he)
    rw [← this]; exact hs
  · intro h
    exact ⟨t, h, List.getElem?_eq_getElem ht⟩

theorem lookup_replicate (l : List I) (i : I) :
    ((l.zip (List.replicate l.length true)).lookup i).getD false = decide (i ∈ l) := by
  induction l with
  | nil => rfl
  | cons a l ih =>
    rw [List.length_cons, List.replicate_succ, List.zip_cons_cons, List.lookup_cons]
    by_cases h : i = a
    · subst h; simp
    · have : (i == a) = false := by simpa using h
      rw [this]
      simp only [ih, List.mem_cons, h, false_or]

/-- The second mask (L257) selects the rows of the first one. -/
theorem second_mask (idx : List I) (hnd : idx.Nodup) (tc T : List (Str × Col)) (n : Nat) (hn : idx.length = n) (htc : WF n tc) :
    let f := fun t => decide (Complete tc t ∧ Complete T t)
    let P := (List.range n).filter f
    alignAnd (rowsAt P idx) (notNa (rowsAt P idx).length (tc.map (fun p => (p.1, rowsAt P p.2)))) idx
      ((List.range n).map (fun t => decide (Complete T t))) = (List.range n).map f := by
  intro f P
  have hPlt : ∀ t ∈ P, t < n := fun t ht => List.mem_range.1 (List.mem_filter.1 ht).1
  have hlen : (rowsAt P idx).length = P.length := (rowsAt_valid P idx (by rw [hn]; exact hPlt)).1
  have htrue : notNa (rowsAt P idx).length (tc.map (fun p => (p.1, rowsAt P p.2)))
      = List.replicate (rowsAt P idx).length true := by
    rw [notNa_eq, List.eq_replicate_iff]
    refine ⟨by simp, ?_⟩
    intro b hb
    simp only [List.mem_map, List.mem_range] at hb
    obtain ⟨k, hk, rfl⟩ := hb
    rw [decide_eq_true_eq]
    intro p hp
    rw [List.mem_map] at hp
    obtain ⟨q, hq, rfl⟩ := hp
    rw [hlen] at hk
    have hPk : P[k]? = some P[k] := List.getElem?_eq_getElem hk
    have hgood := (List.mem_filter.1 (List.getElem_mem hk)).2
    simp only [f, decide_eq_true_eq] at hgood
    obtain ⟨v, hv⟩ := hgood.1 q hq
    refine ⟨v, ?_⟩
    rw [(rowsAt_valid P q.2 (by rw [htc q hq]; exact hPlt)).2 k _ hPk]
    exact hv
  rw [htrue]
  unfold alignAnd
  apply List.ext_getElem
  · simp [hn]
  · intro t h1 h2
    have ht : t < n := by simpa using h2
    have hti : t < idx.length := by omega
    simp only [List.getElem_zipWith, List.getElem_map, List.getElem_range]
    rw [lookup_replicate]
    have hmem := rowsAt_mem_iff idx hnd P (by rw [hn]; exact hPlt) t hti
    have hP : t ∈ P ↔ (Complete tc t ∧ Complete T t) := by
      simp only [P, List.mem_filter, List.mem_range, f, decide_eq_true_eq]
      exact ⟨fun h => h.2, fun h => ⟨ht, h⟩⟩
    rw [Bool.eq_iff_iff]
    simp only [Bool.and_eq_true, decide_eq_true_eq, f]
    rw [hmem, hP]
    tauto

/-! ### C24 -/

/-- C24 (training): with distinct time stamps, `x` and the target come back with the same index; both consist of
exactly the rows at which every generated feature and every target is present, in the original order, each row
carrying the features and the targets computed for it. -/
theorem C24_rows_aligned (fm : Formatter) (idx : List I) (hnd : idx.Nodup) (F : Frame) (hF : WF idx.length F.cols)
    (fm' : Formatter) (x tgt : IFrame I) (h : transformX fm idx F true = .ok (fm', x, tgt)) :
    ∃ trs X tts T, applyAll fm.transformers F = .ok (trs, X) ∧ targetCols fm.targets X = .ok (tts, T) ∧
      (let P := (List.range idx.length).filter (fun t => decide (Complete (newCols F X.cols) t ∧ Complete T t))
       x = atRows P { index := idx, cols := if fm.augment then X.cols else newCols F X.cols } ∧
       tgt = atRows P { index := idx, cols := T } ∧ x.index = tgt.index) := by
  unfold transformX at h
  cases ha : applyAll fm.transformers F with
  | error e => rw [ha] at h; cases h
  | ok r =>
    obtain ⟨trs, X⟩ := r
    rw [ha] at h
    simp only [if_true] at h
    cases hT : targetCols fm.targets X with
    | error e => rw [hT] at h; cases h
    | ok r =>
      obtain ⟨tts, T⟩ := r
      rw [hT] at h
      simp only [Except.ok.injEq, Prod.mk.injEq] at h
      obtain ⟨-, hx, ht⟩ := h
      have hX := (applyAll_WF hF ha).1
      have hTw := targetCols_WF hX hT
      have htc := newCols_WF F X.cols hX
      have hm : List.zipWith (· && ·) (notNa idx.length (newCols F X.cols)) (notNa idx.length T)
          = (List.range idx.length).map (fun t => decide (Complete (newCols F X.cols) t ∧ Complete T t)) := by
        rw [notNa_eq, notNa_eq, List.zipWith_map, List.zipWith_self]
        simp only [Bool.decide_and]
      refine ⟨trs, X, tts, T, rfl, hT, ?_⟩
      intro P
      have hx' : x = atRows P { index := idx, cols := if fm.augment then X.cols else newCols F X.cols } := by
        rw [← hx, hm]
        cases fm.augment
        · exact keepRows_range _ _ _ rfl htc
        · exact keepRows_range _ _ _ rfl hX
      have ht' : tgt = atRows P { index := idx, cols := T } := by
        rw [← ht, hm, keep_range _ idx _ rfl]
        have e : (newCols F X.cols).map (fun p => (p.1, keep ((List.range idx.length).map
            (fun t => decide (Complete (newCols F X.cols) t ∧ Complete T t))) p.2))
            = (newCols F X.cols).map (fun p => (p.1, rowsAt P p.2)) := by
          apply List.map_congr_left
          intro p hp
          rw [keep_range _ p.2 _ (htc p hp)]
        rw [e, notNa_eq idx.length T, second_mask idx hnd (newCols F X.cols) T idx.length rfl htc]
        exact keepRows_range _ _ _ rfl hTw
      refine ⟨hx', ht', ?_⟩
      rw [hx', ht']
      rfl

/-- C24 (prediction): without target, exactly the rows at which every generated feature is present are returned. -/
theorem C24_prediction_rows (fm : Formatter) (idx : List I) (F : Frame) (hF : WF idx.length F.cols)
    (fm' : Formatter) (x tgt : IFrame I) (h : transformX fm idx F false = .ok (fm', x, tgt)) :
    ∃ trs X, applyAll fm.transformers F = .ok (trs, X) ∧
      x = atRows ((List.range idx.length).filter (fun t => decide (Complete (newCols F X.cols) t)))
        { index := idx, cols := if fm.augment then X.cols else newCols F X.cols } := by
  unfold transformX at h
  cases ha : applyAll fm.transformers F with
  | error e => rw [ha] at h; cases h
  | ok r =>
    obtain ⟨trs, X⟩ := r
    rw [ha] at h
    simp only [Bool.false_eq_true, if_false, Except.ok.injEq, Prod.mk.injEq] at h
    obtain ⟨-, hx, -⟩ := h
    have hX := (applyAll_WF hF ha).1
    have htc := newCols_WF F X.cols hX
    refine ⟨trs, X, rfl, ?_⟩
    rw [← hx, notNa_eq]
    cases fm.augment
    · exact keepRows_range _ _ _ rfl htc
    · exact keepRows_range _ _ _ rfl hX

/-- C24 (superset): every time stamp kept for training is kept for prediction on the same frame. -/
theorem C24_training_subset_prediction (fm : Formatter) (idx : List I) (hnd : idx.Nodup) (F : Frame)
    (hF : WF idx.length F.cols) (fm1 fm2 : Formatter) (x tgt x' tgt' : IFrame I)
    (h : transformX fm idx F true = .ok (fm1, x, tgt)) (h' : transformX fm idx F false = .ok (fm2, x', tgt')) :
    x.index ⊆ x'.index := by
  obtain ⟨trs, X, tts, T, ha, -, hx, -, -⟩ := C24_rows_aligned fm idx hnd F hF fm1 x tgt h
  obtain ⟨trs', X', ha', hx'⟩ := C24_prediction_rows fm idx F hF fm2 x' tgt' h'
  rw [ha] at ha'
  injection ha' with ha'
  simp only [Prod.mk.injEq] at ha'
  obtain ⟨-, rfl⟩ := ha'
  rw [hx, hx']
  intro i hi
  simp only [atRows, rowsAt, List.mem_filterMap, List.mem_filter, List.mem_range, decide_eq_true_eq] at hi ⊢
  obtain ⟨t, ⟨ht, hg, -⟩, he⟩ := hi
  exact ⟨t, ⟨ht, hg⟩, he⟩

/-! ### C81: training and serving features coincide -/

/-- The history known at row `t`. -/
def truncate (t : Nat) (F : Frame) : Frame := { dt := F.dt, cols := F.cols.map (fun p => (p.1, p.2.take (t + 1))) }

theorem truncate_agree (t n : Nat) (ht : t < n) (F : Frame) (hF : WF n F.cols) : AgreeUpTo t F (truncate t F) := by
  refine ⟨rfl, ?_⟩
  unfold truncate
  rw [List.forall₂_map_right_iff]
  rw [List.forall₂_same]
  intro p hp
  have hl := hF p hp
  refine ⟨rfl, by omega, by rw [List.length_take]; omega, ?_⟩
  intro s hs
  rw [List.getElem?_take]
  rw [if_pos (by omega)]

theorem applyAll_idem (trs trs' : List Transformer) (F F' : Frame) (h : applyAll trs F = .ok (trs', F')) (n : Nat)
    (hF : WF n F.cols) (G : Frame) (hG : G.dt = F.dt) : applyAll trs' G = applyAll trs G := by
  induction trs generalizing trs' F F' G with
  | nil => simp only [applyAll, Except.ok.injEq, Prod.mk.injEq] at h; obtain ⟨rfl, -⟩ := h; rfl
  | cons tr trs ih =>
    unfold applyAll at h
    cases h1 : transform tr true F with
    | error e => rw [h1] at h; cases h
    | ok r =>
      obtain ⟨tr1, F1, ms⟩ := r
      rw [h1] at h
      simp only at h
      cases h2 : applyAll trs F1 with
      | error e => rw [h2] at h; cases h
      | ok r =>
        obtain ⟨trs2, F2⟩ := r
        rw [h2] at h
        simp only [Except.ok.injEq, Prod.mk.injEq] at h
        obtain ⟨rfl, rfl⟩ := h
        have hw := transform_WF hF h1
        have e1 := C79_same_grid_idempotent tr true F G hG.symm tr1 F1 ms h1
        unfold applyAll
        rw [e1]
        cases hg : transform tr true G with
        | error e => rfl
        | ok r =>
          obtain ⟨tr3, G1, ms'⟩ := r
          simp only
          have hG1 : G1.dt = G.dt := by
            unfold transform at hg
            split at hg
            · split at hg
              · cases hg
              · injection hg with hg
                simp only [Prod.mk.injEq] at hg
                rw [← hg.2.1]
            · cases hg
          rw [ih trs2 F1 F2 h2 hw.1 G1 (by rw [hG1, hG, hw.2])]

theorem forall₂_filter {α β : Type} {R : α → β → Prop} {l : List α} {m : List β} (h : List.Forall₂ R l m) (f : α → Bool)
    (g : β → Bool) (hfg : ∀ a b, R a b → f a = g b) : List.Forall₂ R (l.filter f) (m.filter g) := by
  induction h with
  | nil => exact List.Forall₂.nil
  | @cons a b l m hr _ ih =>
    rw [List.filter_cons, List.filter_cons, ← hfg a b hr]
    cases f a
    · exact ih
    · exact List.Forall₂.cons hr ih

theorem rowsAt_getLast {α : Type} (t : Nat) (l : List α) (hl : l.length = t + 1) (f : Nat → Bool) (hf : f t = true) :
    (rowsAt ((List.range (t + 1)).filter f) l).getLast? = l[t]? := by
  have e : (List.range (t + 1)).filter f = (List.range t).filter f ++ [t] := by
    rw [List.range_succ, List.filter_append]
    simp [hf]
  rw [e]
  unfold rowsAt
  rw [List.filterMap_append, List.filterMap_cons, List.getElem?_eq_getElem (by omega : t < l.length)]
  simp

/-- C81: take a row `t` of the training frame returned by `Formatter.transform` (all feature lags non-negative). Given
only the history up to `t`, the same formatter (after training) returns, as its last row, the same time stamp with the
same features under the same column names. -/
theorem C81_serving_equals_training (fm : Formatter) (idx : List I) (hnd : idx.Nodup) (F : Frame)
    (hF : WF idx.length F.cols) (hl : ∀ tr ∈ fm.transformers, NonNegLags tr) (fm1 : Formatter) (x tgt : IFrame I)
    (h : transformX fm idx F true = .ok (fm1, x, tgt)) (k : Nat) (hk : k < x.index.length) :
    ∃ (t : Nat) (fm2 : Formatter) (x' tgt' : IFrame I), idx[t]? = x.index[k]? ∧
      transformX fm1 (idx.take (t + 1)) (truncate t F) false = .ok (fm2, x', tgt') ∧
      x'.index.getLast? = x.index[k]? ∧
      List.Forall₂ (fun p q : Str × Col => p.1 = q.1 ∧ q.2.getLast? = p.2[k]?) x.cols x'.cols := by
  obtain ⟨trs, X, tts, T, ha, hT, hx, -, -⟩ := C24_rows_aligned fm idx hnd F hF fm1 x tgt h
  have hfm1 : fm1.transformers = trs ∧ fm1.augment = fm.augment := by
    unfold transformX at h
    rw [ha] at h
    simp only [if_true] at h
    rw [hT] at h
    simp only [Except.ok.injEq, Prod.mk.injEq] at h
    rw [← h.1]
    exact ⟨rfl, rfl⟩
  set n := idx.length with hn
  set P := (List.range n).filter (fun t => decide (Complete (newCols F X.cols) t ∧ Complete T t)) with hP
  have hPlt : ∀ t ∈ P, t < n := fun t ht => List.mem_range.1 (List.mem_filter.1 ht).1
  have hX := (applyAll_WF hF ha).1
  have hxi : x.index = rowsAt P idx := by rw [hx]; rfl
  have hkP : k < P.length := by
    rw [hxi, (rowsAt_valid P idx hPlt).1] at hk; exact hk
  set t := P[k] with ht
  have hPk : P[k]? = some t := List.getElem?_eq_getElem hkP
  have htn : t < n := hPlt t (List.getElem_mem hkP)
  have hgood : Complete (newCols F X.cols) t := by
    have := (List.mem_filter.1 (List.getElem_mem hkP)).2
    simp only [decide_eq_true_eq] at this
    exact this.1
  have hagree := truncate_agree t n htn F hF
  -- the chain on the truncated frame
  have hsame := C19_no_lookahead t fm.transformers hl F (truncate t F) hagree
  rw [ha] at hsame
  cases hg : applyAll fm.transformers (truncate t F) with
  | error e => rw [hg] at hsame; exact hsame.elim
  | ok r =>
    obtain ⟨trs', Y⟩ := r
    rw [hg] at hsame
    obtain ⟨rfl, hXY⟩ := hsame
    have hidem : applyAll fm1.transformers (truncate t F) = .ok (trs, Y) := by
      rw [hfm1.1, applyAll_idem fm.transformers trs F X ha n hF (truncate t F) rfl, hg]
    have htw : WF (t + 1) (truncate t F).cols := by
      intro p hp
      simp only [truncate, List.mem_map] at hp
      obtain ⟨q, hq, rfl⟩ := hp
      have := hF q hq
      rw [List.length_take]; omega
    have hY := (applyAll_WF htw hg).1
    have hil : (idx.take (t + 1)).length = t + 1 := by rw [List.length_take]; omega
    have hnew : List.Forall₂ (fun p q : Str × Col => p.1 = q.1 ∧ AgreeCol t p.2 q.2) (newCols F X.cols) (newCols (truncate t F) Y.cols) := by
      unfold newCols
      refine forall₂_filter hXY.2 _ _ ?_
      rintro p q ⟨hpq, -⟩
      rw [hpq, agree_any hagree.2]
    have hgood' : Complete (newCols (truncate t F) Y.cols) t := by
      intro q hq
      obtain ⟨p, hp, hr⟩ : ∃ p ∈ newCols F X.cols, AgreeCol t p.2 q.2 := by
        clear hgood
        generalize newCols F X.cols = A at hnew ⊢
        generalize newCols (truncate t F) Y.cols = B at hnew hq
        induction hnew with
        | nil => cases hq
        | @cons a b l m hr _ ih =>
          rcases List.mem_cons.1 hq with rfl | hq
          · exact ⟨a, List.mem_cons_self, hr.2⟩
          · obtain ⟨p, hp, h⟩ := ih hq
            exact ⟨p, List.mem_cons_of_mem _ hp, h⟩
      obtain ⟨v, hv⟩ := hgood p hp
      exact ⟨v, by rw [← hr.2.2 t le_rfl]; exact hv⟩
    refine ⟨t, _, _, _, ?_, by unfold transformX; rw [hidem]; simp only [Bool.false_eq_true, if_false]; rfl, ?_, ?_⟩
    · rw [hxi, (rowsAt_valid P idx hPlt).2 k t hPk]
    · rw [hil, notNa_eq]
      have hcalc : ∀ cols, (IFrame.keepRows ((List.range (t + 1)).map (fun s => decide (Complete (newCols (truncate t F) Y.cols) s)))
          (IFrame.mk (idx.take (t + 1)) cols)).index.getLast? = (idx.take (t + 1))[t]? := by
        intro cols
        simp only [IFrame.keepRows]
        rw [keep_range _ _ _ hil]
        exact rowsAt_getLast t _ hil _ (by simpa using hgood')
      rw [hxi, (rowsAt_valid P idx hPlt).2 k t hPk]
      have : (idx.take (t + 1))[t]? = idx[t]? := by rw [List.getElem?_take, if_pos (by omega)]
      rw [← this]
      cases fm1.augment <;> exact hcalc _
    · rw [hil, notNa_eq]
      have hcalc : ∀ A B : List (Str × Col), WF n A → WF (t + 1) B →
          List.Forall₂ (fun p q : Str × Col => p.1 = q.1 ∧ AgreeCol t p.2 q.2) A B →
          List.Forall₂ (fun p q : Str × Col => p.1 = q.1 ∧ q.2.getLast? = p.2[k]?) (atRows P (IFrame.mk idx A)).cols
            (IFrame.keepRows ((List.range (t + 1)).map (fun s => decide (Complete (newCols (truncate t F) Y.cols) s)))
              (IFrame.mk (idx.take (t + 1)) B)).cols := by
        intro A B hA hB hAB
        simp only [atRows, IFrame.keepRows]
        rw [List.forall₂_map_left_iff, List.forall₂_map_right_iff]
        induction hAB with
        | nil => exact List.Forall₂.nil
        | @cons p q l m hr _ ih =>
          refine List.Forall₂.cons ⟨hr.1, ?_⟩ (ih (fun p hp => hA p (List.mem_cons_of_mem _ hp)) (fun p hp => hB p (List.mem_cons_of_mem _ hp)))
          have hpl := hA p List.mem_cons_self
          have hql := hB q List.mem_cons_self
          simp only
          rw [keep_range _ _ _ hql, rowsAt_getLast t _ hql _ (by simpa using hgood'),
            (rowsAt_valid P p.2 (by rw [hpl]; exact hPlt)).2 k t hPk, hr.2.2.2 t le_rfl]
      rw [hx, hfm1.2]
      cases fm.augment
      · exact hcalc _ _ (newCols_WF F X.cols hX) (newCols_WF _ _ hY) hnew
      · exact hcalc _ _ hX hY hXY.2

/-! ### Concrete instances -/

/-- Two lags of `q`, target one step ahead; raw columns dropped. -/
def exFm : Formatter :=
  { transformers := [{ names := ["q".toList], functions := [], agg := .unset, lags := some [0, 1], relative := false, dtArg := none }],
    targets := [{ names := ["q".toList], functions := [], agg := .unset, lags := some [-1], relative := false, dtArg := none }],
    augment := false }

def exF : Frame := { dt := 900000000000, cols := [("q".toList, [some 10, some 20, none, some 40, some 50, some 60])] }

example : ∃ fm' x tgt, transformX exFm [0, 15, 30, 45, 60, 75] exF true = .ok (fm', x, tgt) ∧
    x.index = [60] ∧ tgt.index = [60] ∧ x.cols = [("q_lag_000".toList, [some 50]), ("q_lag_001".toList, [some 40])] ∧
    tgt.cols = [("q_lag_-001".toList, [some 60])] := by
  refine ⟨_, _, _, rfl, ?_⟩
  decide +kernel

example : ∃ fm' x tgt, transformX exFm [0, 15, 30, 45, 60, 75] exF false = .ok (fm', x, tgt) ∧ x.index = [15, 60, 75] := by
  refine ⟨_, _, _, rfl, ?_⟩
  decide +kernel

example : WF 6 exF.cols ∧ [0, 15, 30, 45, 60, 75].Nodup ∧ ∀ tr ∈ exFm.transformers, NonNegLags tr := by
  refine ⟨by unfold WF; decide, by decide, ?_⟩
  intro tr htr
  simp only [exFm, List.mem_cons, List.not_mem_nil, or_false] at htr
  subst htr
  intro ls hls l hl
  injection hls with hls
  subst hls
  simp at hl
  omega

end PyF.Fmt
