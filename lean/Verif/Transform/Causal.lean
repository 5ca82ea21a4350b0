import Verif.Transform.Props
import Mathlib.Tactic.IntervalCases
import Mathlib.Data.List.Flatten

/-! C19: no look-ahead through features, no look-back through targets; C79, C80: sticky `agg_freq` and the parallel
branch of `Formatter._transform`. -/

namespace PyF.Transform
open PyF.Names

/-- Two columns agree on the rows up to `t`; their lengths and later rows may differ. -/
def AgreeCol (t : Nat) (c d : Col) : Prop := t < c.length ∧ t < d.length ∧ ∀ s : Nat, s ≤ t → c[s]? = d[s]?

/-- Two frames agree on the rows up to `t`. -/
def AgreeUpTo (t : Nat) (F G : Frame) : Prop :=
  F.dt = G.dt ∧ List.Forall₂ (fun p q : Str × Col => p.1 = q.1 ∧ AgreeCol t p.2 q.2) F.cols G.cols

/-- Features only look back: no negative lag. -/
def NonNegLags (tr : Transformer) : Prop := ∀ ls, tr.lags = some ls → ∀ l ∈ ls, 0 ≤ l

theorem AgreeCol.sample {t : Nat} {c d : Col} (h : AgreeCol t c d) (s : Int) (hs : s ≤ t) :
    PyF.Transform.sample c s = PyF.Transform.sample d s := by
  unfold PyF.Transform.sample
  split
  · rw [h.2.2 s.toNat (by omega)]
  · rfl

theorem AgreeCol.roll {t : Nat} {c d : Col} (h : AgreeCol t c d) (dt a m : Nat) (f : List ℚ → Option ℚ) :
    AgreeCol t (rolling dt a m f c) (rolling dt a m f d) := by
  refine ⟨by rw [rolling_length]; exact h.1, by rw [rolling_length]; exact h.2.1, ?_⟩
  intro s hs
  rw [rolling_get _ _ _ _ _ _ (lt_of_le_of_lt hs h.1), rolling_get _ _ _ _ _ _ (lt_of_le_of_lt hs h.2.1)]
  have hw : window dt a c s = window dt a d s := by
    unfold window
    apply List.map_congr_left
    intro r hr
    have hr' : r < s + 1 := List.mem_range.1 (List.mem_filter.1 hr).1
    exact h.sample _ (by omega)
  simp only [rollAt, hw]

theorem AgreeCol.shifted {t : Nat} {c d : Col} (h : AgreeCol t c d) (l : Int) (hl : 0 ≤ l) :
    AgreeCol t (shift l c) (shift l d) := by
  refine ⟨by rw [shift_length]; exact h.1, by rw [shift_length]; exact h.2.1, ?_⟩
  intro s hs
  rw [shift_get _ _ _ (lt_of_le_of_lt hs h.1), shift_get _ _ _ (lt_of_le_of_lt hs h.2.1), h.sample _ (by omega)]

theorem AgreeCol.base {t : Nat} {c d : Col} (h : AgreeCol t c d) (tr : Transformer) (a : Agg) (dt : Nat) (nm : Str) :
    List.Forall₂ (fun p q : Str × Col => p.1 = q.1 ∧ AgreeCol t p.2 q.2) (baseCols tr a dt nm c) (baseCols tr a dt nm d) := by
  unfold baseCols
  cases tr.functions with
  | nil => exact List.Forall₂.cons ⟨rfl, h⟩ List.Forall₂.nil
  | cons f fs =>
    apply forall₂_map
    intro g _
    exact ⟨rfl, h.roll _ _ _ _⟩

theorem AgreeCol.gen {t : Nat} {c d : Col} (h : AgreeCol t c d) (tr : Transformer) (hl : NonNegLags tr) (a : Agg)
    (dt : Nat) (nm : Str) :
    List.Forall₂ (fun p q : Str × Col => p.1 = q.1 ∧ AgreeCol t p.2 q.2) (genCols tr a dt nm c) (genCols tr a dt nm d) := by
  unfold genCols
  cases hls : tr.lags with
  | none => exact h.base tr a dt nm
  | some ls =>
    apply forall₂_flatMap
    intro l hmem
    rw [List.forall₂_map_left_iff, List.forall₂_map_right_iff]
    refine (h.base tr a dt nm).imp ?_
    rintro p q ⟨h1, h2⟩
    refine ⟨by rw [h1], h2.shifted _ ?_⟩
    have := hl ls hls l hmem
    unfold lagMult
    split
    · positivity
    · omega

theorem agree_find {t : Nat} {A B : List (Str × Col)}
    (h : List.Forall₂ (fun p q : Str × Col => p.1 = q.1 ∧ AgreeCol t p.2 q.2) A B) (nm : Str) :
    (A.find? (fun p => p.1 = nm) = none ∧ B.find? (fun p => p.1 = nm) = none) ∨
    ∃ p q, A.find? (fun p => p.1 = nm) = some p ∧ B.find? (fun p => p.1 = nm) = some q ∧ AgreeCol t p.2 q.2 := by
  induction h with
  | nil => left; exact ⟨rfl, rfl⟩
  | @cons p q ps qs hr _ ih =>
    by_cases he : p.1 = nm
    · right
      refine ⟨p, q, ?_, ?_, hr.2⟩
      · rw [List.find?_cons_of_pos]; simpa using he
      · rw [List.find?_cons_of_pos]; rw [← hr.1]; simpa using he
    · rw [List.find?_cons_of_neg (by simpa using he), List.find?_cons_of_neg (by rw [← hr.1]; simpa using he)]
      exact ih

theorem agree_any {t : Nat} {A B : List (Str × Col)}
    (h : List.Forall₂ (fun p q : Str × Col => p.1 = q.1 ∧ AgreeCol t p.2 q.2) A B) (nm : Str) :
    A.any (fun p => p.1 = nm) = B.any (fun p => p.1 = nm) := by
  induction h with
  | nil => rfl
  | @cons p q ps qs hr _ ih => simp only [List.any_cons, ih, hr.1]

/-- Two outcomes are the same exception, or two frames agreeing up to `t` with the same transformer state. -/
def SameUpTo {S : Type} (t : Nat) : Except PyErr (S × Frame) → Except PyErr (S × Frame) → Prop
  | .error e, .error e' => e = e'
  | .ok (s, F), .ok (s', G) => s = s' ∧ AgreeUpTo t F G
  | _, _ => False

/-- One transformer step on agreeing frames. -/
theorem transform_agree (t : Nat) (tr : Transformer) (hl : NonNegLags tr) (aug : Bool) (F G : Frame) (h : AgreeUpTo t F G) :
    (∃ e, transform tr aug F = .error e ∧ transform tr aug G = .error e) ∨
    ∃ tr' F' G' ms ms', transform tr aug F = .ok (tr', F', ms) ∧ transform tr aug G = .ok (tr', G', ms') ∧ AgreeUpTo t F' G' := by
  have hall : tr.names.all (fun nm => F.cols.any (fun p => p.1 = nm)) = tr.names.all (fun nm => G.cols.any (fun p => p.1 = nm)) := by
    congr 1
    funext nm
    exact agree_any h.2 nm
  have hst : samplingTime tr F = samplingTime tr G := by rw [samplingTime, samplingTime, h.1]
  unfold transform
  rw [hall, hst]
  split
  · rename_i h1
    split
    · left; exact ⟨_, rfl, rfl⟩
    · right
      refine ⟨_, _, _, _, _, rfl, rfl, h.1, ?_⟩
      refine List.rel_append ?_ ?_
      · cases aug
        · exact List.Forall₂.nil
        · exact h.2
      · apply forall₂_flatMap
        intro nm hnm
        have hin : G.cols.any (fun p => p.1 = nm) = true := by
          rw [List.all_eq_true] at h1
          exact h1 nm hnm
        have hagree : AgreeCol t (F.get nm) (G.get nm) := by
          rcases agree_find h.2 nm with ⟨_, h2⟩ | ⟨p, q, hp, hq, hpq⟩
          · exfalso
            rw [List.find?_eq_none] at h2
            rw [List.any_eq_true] at hin
            obtain ⟨p, hp, hp'⟩ := hin
            exact h2 p hp hp'
          · simp only [Frame.get, hp, hq, Option.map_some, Option.getD_some]
            exact hpq
        exact hagree.gen tr hl _ _ nm
  · left; exact ⟨_, rfl, rfl⟩

/-- C19 (features): when every transformer has only non-negative lags, two inputs that agree on the rows up to `t`
(and may differ, or even end, anywhere later) give, through any chain of transformers each reading the columns
produced by the earlier ones, either the same exception or frames with the same columns that agree on the rows up to
`t`. -/
theorem C19_no_lookahead (t : Nat) (trs : List Transformer) (hl : ∀ tr ∈ trs, NonNegLags tr) (F G : Frame)
    (h : AgreeUpTo t F G) : SameUpTo t (applyAll trs F) (applyAll trs G) := by
  induction trs generalizing F G with
  | nil => exact ⟨rfl, h⟩
  | cons tr trs ih =>
    unfold applyAll
    rcases transform_agree t tr (hl tr List.mem_cons_self) true F G h with ⟨e, h1, h2⟩ | ⟨tr', F', G', ms, ms', h1, h2, h3⟩
    · rw [h1, h2]; rfl
    · rw [h1, h2]
      have hih := ih (fun tr htr => hl tr (List.mem_cons_of_mem _ htr)) F' G' h3
      simp only
      revert hih
      cases applyAll trs F' with
      | error e => cases applyAll trs G' with
        | error e' => exact fun h => h
        | ok r => exact fun h => h.elim
      | ok r => cases applyAll trs G' with
        | error e' => exact fun h => h.elim
        | ok r' =>
          obtain ⟨s, A⟩ := r
          obtain ⟨s', B⟩ := r'
          rintro ⟨rfl, h⟩
          exact ⟨rfl, h⟩

/-! ### Targets -/

/-- Two columns of the same length agree on the rows after `t`. -/
def AgreeAfterCol (t : Nat) (c d : Col) : Prop := c.length = d.length ∧ ∀ s : Nat, t < s → c[s]? = d[s]?

/-- Two frames with the same columns and rows agree on the rows after `t`. -/
def AgreeAfter (t : Nat) (F G : Frame) : Prop :=
  F.dt = G.dt ∧ List.Forall₂ (fun p q : Str × Col => p.1 = q.1 ∧ AgreeAfterCol t p.2 q.2) F.cols G.cols

/-- Targets only look forward: every lag is negative and, when there are aggregation functions, leads by at least the
aggregation window. -/
def FutureOnly (tr : Transformer) (F : Frame) : Prop :=
  ∃ ls, tr.lags = some ls ∧ ∀ l ∈ ls,
    let dt := samplingTime tr F
    let a := tr.agg.resolve dt
    let lead := - (l * lagMult tr (aggSteps dt a))
    0 < lead ∧ (tr.functions ≠ [] → (a.ns : Int) ≤ lead * dt)

theorem AgreeAfterCol.sample {t : Nat} {c d : Col} (h : AgreeAfterCol t c d) (s : Int) (hs : (t : Int) < s) :
    PyF.Transform.sample c s = PyF.Transform.sample d s := by
  unfold PyF.Transform.sample
  split
  · rw [h.2 s.toNat (by omega)]
  · rfl

/-- C19 (targets): targets whose lags are negative and whose windows do not exceed the lead are, at row `t`, the same
for two inputs that agree on the rows after `t`, whatever happened up to `t`. -/
theorem C19_targets_future_only (t : Nat) (tr : Transformer) (F G : Frame) (hf : FutureOnly tr F) (h : AgreeAfter t F G)
    (hacc : Accepts tr F) :
    ∃ tr' F' G' ms, transform tr false F = .ok (tr', F', ms) ∧ transform tr false G = .ok (tr', G', ms) ∧
      List.Forall₂ (fun p q : Str × Col => p.1 = q.1 ∧ p.2[t]? = q.2[t]?) F'.cols G'.cols := by
  have hget : ∀ nm, AgreeAfterCol t (F.get nm) (G.get nm) := by
    intro nm
    have := h.2
    unfold Frame.get
    generalize F.cols = A at this ⊢
    generalize G.cols = B at this ⊢
    induction this with
    | nil => exact ⟨rfl, fun _ _ => rfl⟩
    | @cons p q ps qs hr _ ih =>
      by_cases he : p.1 = nm
      · rw [List.find?_cons_of_pos (by simpa using he), List.find?_cons_of_pos (by rw [← hr.1]; simpa using he)]
        exact hr.2
      · rw [List.find?_cons_of_neg (by simpa using he), List.find?_cons_of_neg (by rw [← hr.1]; simpa using he)]
        exact ih
  have haccG : Accepts tr G := by
    refine ⟨?_, hacc.2⟩
    intro nm hnm
    obtain ⟨c, hc⟩ := hacc.1 nm hnm
    have := h.2
    clear hget h hf hacc
    generalize F.cols = A at this hc
    generalize G.cols = B at this ⊢
    induction this with
    | nil => cases hc
    | @cons p q ps qs hr _ ih =>
      rcases List.mem_cons.1 hc with rfl | hc
      · exact ⟨q.2, List.mem_cons.2 (Or.inl (by rw [show nm = q.1 from hr.1]))⟩
      · obtain ⟨d, hd⟩ := ih hc
        exact ⟨d, List.mem_cons_of_mem _ hd⟩
  have hst : samplingTime tr G = samplingTime tr F := by rw [samplingTime, samplingTime, h.1]
  have hG := transform_ok tr G false haccG
  rw [hst] at hG
  refine ⟨_, _, _, _, transform_ok tr F false hacc, hG, ?_⟩
  simp only [Bool.false_eq_true, if_false, List.nil_append]
  apply forall₂_flatMap
  intro nm _
  obtain ⟨ls, hls, hlead⟩ := hf
  unfold genCols
  rw [hls]
  apply forall₂_flatMap
  intro l hl
  have hl' := hlead l hl
  simp only at hl'
  set dt := samplingTime tr F with hdt
  set a := tr.agg.resolve dt with ha
  set L := l * lagMult tr (aggSteps dt a) with hL
  have hc := hget nm
  have hshift : ∀ c d : Col, c.length = d.length → sample c ((t : Int) - L) = sample d ((t : Int) - L) →
      (shift L c)[t]? = (shift L d)[t]? := by
    intro c d hlen he
    rcases lt_or_ge t c.length with h1 | h1
    · rw [shift_get _ _ _ h1, shift_get _ _ _ (hlen ▸ h1), he]
    · rw [List.getElem?_eq_none (by rw [shift_length]; exact h1),
        List.getElem?_eq_none (by rw [shift_length, ← hlen]; exact h1)]
  rw [List.forall₂_map_left_iff, List.forall₂_map_right_iff]
  unfold baseCols
  cases hfn : tr.functions with
  | nil => exact List.Forall₂.cons ⟨rfl, hshift _ _ hc.1 (hc.sample _ (by omega))⟩ List.Forall₂.nil
  | cons f fs =>
    have hwin := hl'.2 (by rw [hfn]; exact List.cons_ne_nil _ _)
    apply forall₂_map
    intro g _
    refine ⟨rfl, hshift _ _ (by rw [rolling_length, rolling_length, hc.1]) ?_⟩
    have hr : ∃ r : Nat, (t : Int) - L = r ∧ t < r := ⟨((t : Int) - L).toNat, by omega, by omega⟩
    obtain ⟨r, hr, htr⟩ := hr
    rw [hr]
    rcases lt_or_ge r (F.get nm).length with h1 | h1
    · rw [sample_of_get _ _ _ (rolling_get _ _ _ _ _ _ h1), sample_of_get _ _ _ (rolling_get _ _ _ _ _ _ (hc.1 ▸ h1))]
      have hw : window dt a.ns (F.get nm) r = window dt a.ns (G.get nm) r := by
        unfold window
        apply List.map_congr_left
        intro s hs
        apply hc.sample
        rw [List.mem_filter, List.mem_range] at hs
        have h2 := hs.2
        simp only [decide_eq_true_eq] at h2
        by_contra hle
        have h3 : ((r - t) * dt : Nat) ≤ (r - s) * dt := Nat.mul_le_mul_right dt (by omega)
        have h4 : (a.ns : Int) ≤ ((r - t : Nat) : Int) * dt := by
          have : ((r - t : Nat) : Int) = -L := by omega
          rw [this]; exact hwin
        have h5 : a.ns ≤ (r - t) * dt := by exact_mod_cast h4
        omega
      simp only [rollAt, hw]
    · rw [sample_out _ _ (by rw [rolling_length]; omega), sample_out _ _ (by rw [rolling_length]; have := hc.1; omega)]

/-! ### C79: `agg_freq` is fixed by the first frame -/

/-- C79 (stable): transforming again with the same sampling time leaves the transformer unchanged and gives the same
result for the same frame. -/
theorem C79_same_grid_idempotent (tr : Transformer) (aug : Bool) (F G : Frame) (hdt : F.dt = G.dt)
    (tr' : Transformer) (F' : Frame) (ms : List Meta) (h : transform tr aug F = .ok (tr', F', ms)) :
    transform tr' aug G = transform tr aug G := by
  unfold transform at h
  split at h
  · split at h
    · cases h
    · injection h with h
      simp only [Prod.mk.injEq] at h
      obtain ⟨rfl, -, -⟩ := h
      have hst : ∀ a', samplingTime { tr with agg := a' } G = samplingTime tr F := by
        intro a'; simp [samplingTime, hdt]
      have hst' : samplingTime tr G = samplingTime tr F := by simp [samplingTime, hdt]
      have hres : ∀ x : Agg, (x.resolve (samplingTime tr F)).resolve (samplingTime tr F) = x.resolve (samplingTime tr F) := by
        intro x; cases x <;> rfl
      by_cases hn : tr.names = []
      · rw [if_pos hn]
      · simp only [if_neg hn]
        unfold transform
        simp only [hst, if_neg hn, hres]
        rfl
  · cases h

/-- C79 (what is frozen): after a successful call with at least one variable, an absent `agg_freq` has become the
sampling time of that frame, `k` steps have become `k` times it, and a duration is as given; nothing else changed. -/
theorem C79_frozen_value (tr : Transformer) (aug : Bool) (F : Frame) (hn : tr.names ≠ [])
    (tr' : Transformer) (F' : Frame) (ms : List Meta) (h : transform tr aug F = .ok (tr', F', ms)) :
    tr' = { tr with agg := tr'.agg } ∧
      (tr.agg = .unset → tr'.agg = .td (tr.dtArg.getD F.dt)) ∧
      (∀ k, tr.agg = .steps k → tr'.agg = .td (k * tr.dtArg.getD F.dt)) ∧
      (∀ x v, tr.agg = .text x v → tr'.agg = .text x v) ∧ (∀ v, tr.agg = .td v → tr'.agg = .td v) := by
  unfold transform at h
  split at h
  · split at h
    · cases h
    · injection h with h
      simp only [Prod.mk.injEq] at h
      obtain ⟨rfl, -, -⟩ := h
      refine ⟨rfl, ?_⟩
      refine ⟨fun e => by rw [e]; rfl, fun k e => by rw [e]; rfl, fun x v e => by rw [e]; rfl, fun v e => by rw [e]; rfl⟩
  · cases h

/-- C79 (defect): an absent `agg_freq` is frozen to the sampling time of the first frame. Used later on a coarser grid
with relative lags, every lag collapses to zero: each lagged column repeats the present value. -/
theorem C79_coarser_grid_collapses_lags (tr : Transformer) (F G : Frame) (nm : Str) (ls : List Int)
    (hn : tr.names = [nm]) (hfn : tr.functions = []) (hagg : tr.agg = .unset) (hl : tr.lags = some ls) (hne : ls ≠ [])
    (hrel : tr.relative = true) (hda : tr.dtArg = none) (hF : ∃ c, (nm, c) ∈ F.cols) (hG : ∃ c, (nm, c) ∈ G.cols)
    (hdt : F.dt < G.dt) :
    ∃ tr' F' ms tr'' G' ms', transform tr false F = .ok (tr', F', ms) ∧ transform tr' false G = .ok (tr'', G', ms') ∧
      G'.cols = ls.map (fun l => (lagName nm l, G.get nm)) := by
  have hacc : Accepts tr F := ⟨by intro x hx; rw [hn] at hx; simp at hx; subst hx; exact hF, by rw [hl]; simpa using hne⟩
  have e1 := transform_ok tr F false hacc
  have hnn : tr.names ≠ [] := by rw [hn]; simp
  rw [if_neg hnn] at e1
  refine ⟨_, _, _, _, _, _, e1, transform_ok _ G false ⟨by intro x hx; simp only [hn] at hx; simp at hx; subst hx; exact hG, by
    simp only [hl]; simpa using hne⟩, ?_⟩
  simp only [hn, List.flatMap_cons, List.flatMap_nil, List.append_nil, Bool.false_eq_true, if_false, List.nil_append]
  have h0 : F.dt / G.dt = 0 := Nat.div_eq_of_lt hdt
  have hsteps : aggSteps G.dt (.td F.dt) = 0 := h0
  simp only [genCols, hl, baseCols, hfn, hagg, samplingTime, hda, Option.getD_none, Agg.resolve, hsteps, lagMult, hrel,
    List.map_cons, List.map_nil, if_true]
  have hz : ∀ l : Int, shift (l * ((0 : Nat) : Int)) (G.get nm) = G.get nm := by
    intro l
    apply List.ext_getElem?
    intro t
    rcases lt_or_ge t (G.get nm).length with h | h
    · rw [shift_get _ _ _ h]
      simp only [Nat.cast_zero, mul_zero, sub_zero]
      rw [sample_nat, List.getElem?_eq_getElem h]
      rfl
    · rw [List.getElem?_eq_none h, List.getElem?_eq_none (by rw [shift_length]; exact h)]
  simp only [hz]
  clear hne hl hacc e1
  induction ls with
  | nil => rfl
  | cons l ls ih => simp [List.flatMap_cons, ih]

/-! ### C80: the parallel branch -/

/-- The transformers only refer to columns of the input frame. -/
def OnlyInputs (trs : List Transformer) (F : Frame) : Prop := ∀ tr ∈ trs, ∀ nm ∈ tr.names, ∃ c, (nm, c) ∈ F.cols

theorem find_append_of_mem (A B : List (Str × Col)) (nm : Str) (h : ∃ c, (nm, c) ∈ A) :
    (A ++ B).find? (fun p => p.1 = nm) = A.find? (fun p => p.1 = nm) := by
  obtain ⟨c, hc⟩ := h
  rw [List.find?_append]
  cases hA : A.find? (fun p => p.1 = nm) with
  | none =>
    rw [List.find?_eq_none] at hA
    exact absurd (by simp) (hA _ hc)
  | some p => rfl

theorem transform_extend (tr : Transformer) (F : Frame) (B : List (Str × Col)) (h : ∀ nm ∈ tr.names, ∃ c, (nm, c) ∈ F.cols) :
    transform tr true { dt := F.dt, cols := F.cols ++ B } = match transform tr false F with
      | .error e => .error e
      | .ok (tr', F', ms) => .ok (tr', { dt := F.dt, cols := (F.cols ++ B) ++ F'.cols }, ms) := by
  have h1 : ∀ C : List (Str × Col), tr.names.all (fun nm => (F.cols ++ C).any (fun p => p.1 = nm)) = true := by
    intro C
    rw [List.all_eq_true]
    intro nm hnm
    obtain ⟨c, hc⟩ := h nm hnm
    rw [List.any_eq_true]
    exact ⟨_, List.mem_append_left _ hc, by simp⟩
  have h1' := h1 []
  rw [List.append_nil] at h1'
  unfold transform
  rw [if_pos h1', if_pos (h1 B)]
  split
  · rfl
  · have hst : samplingTime tr { dt := F.dt, cols := F.cols ++ B } = samplingTime tr F := rfl
    simp only [hst, if_true, Bool.false_eq_true, if_false, List.nil_append]
    congr 5
    apply List.flatMap_congr
    intro nm hnm
    have : ({ dt := F.dt, cols := F.cols ++ B } : Frame).get nm = F.get nm := by
      unfold Frame.get
      rw [find_append_of_mem _ _ _ (h nm hnm)]
    rw [this]

/-- C80: when the transformers only refer to columns of the input frame, the parallel branch gives exactly the result
(columns, order, transformer state, exception) of the sequential one. -/
theorem C80_parallel_eq_sequential (trs : List Transformer) (F : Frame) (h : OnlyInputs trs F) :
    applyPar trs F = applyAll trs F := by
  have key : ∀ B : List (Str × Col), applyAll trs { dt := F.dt, cols := F.cols ++ B } = match mapPar trs F with
      | .error e => .error e
      | .ok (trs', cols) => .ok (trs', { dt := F.dt, cols := F.cols ++ B ++ cols }) := by
    induction trs with
    | nil => intro B; simp [applyAll, mapPar]
    | cons tr trs ih =>
      intro B
      have ih' := ih (fun tr htr => h tr (List.mem_cons_of_mem _ htr))
      unfold applyAll mapPar
      rw [transform_extend tr F B (h tr List.mem_cons_self)]
      cases ht : transform tr false F with
      | error e => rfl
      | ok r =>
        obtain ⟨tr', F', ms⟩ := r
        simp only
        rw [show F.cols ++ B ++ F'.cols = F.cols ++ (B ++ F'.cols) by simp, ih' (B ++ F'.cols)]
        cases mapPar trs F with
        | error e => rfl
        | ok r => simp
  have := key []
  simp only [List.append_nil] at this
  unfold applyPar
  exact this.symm

/-- C80 (difference): a transformer referring to a column that only an earlier transformer produces makes the parallel
branch fail, whatever the sequential one does. -/
theorem C80_parallel_fails_on_chained (trs : List Transformer) (F : Frame)
    (h : ∃ tr ∈ trs, ∃ nm ∈ tr.names, ∀ c, (nm, c) ∉ F.cols) : ∃ e, applyPar trs F = .error e := by
  have key : ∃ e, mapPar trs F = .error e := by
    induction trs with
    | nil => obtain ⟨tr, htr, _⟩ := h; cases htr
    | cons tr trs ih =>
      unfold mapPar
      cases ht : transform tr false F with
      | error e => exact ⟨e, rfl⟩
      | ok r =>
        obtain ⟨tr', htr', nm, hnm, hno⟩ := h
        rcases List.mem_cons.1 htr' with rfl | hmem
        · exfalso
          unfold transform at ht
          split at ht
          · rename_i hall
            rw [List.all_eq_true] at hall
            have := hall nm hnm
            rw [List.any_eq_true] at this
            obtain ⟨p, hp, hpe⟩ := this
            have hpe' : p.1 = nm := by simpa using hpe
            exact hno p.2 (by rw [← hpe']; exact hp)
          · cases ht
        · obtain ⟨e, he⟩ := ih ⟨tr', hmem, nm, hnm, hno⟩
          exact ⟨e, by simp [he]⟩
  obtain ⟨e, he⟩ := key
  exact ⟨e, by rw [applyPar, he]⟩

/-! ### Concrete instances -/

/-- A chain: the second transformer aggregates a column made by the first. -/
def exChain : List Transformer :=
  [{ names := ["q".toList], functions := [], agg := .unset, lags := some [1], relative := false, dtArg := none },
   { names := ["q_lag_001".toList], functions := [exSum], agg := .steps 2, lags := some [0], relative := false, dtArg := none }]

/-- `exFrame` with the rows after row 2 changed and cut. -/
def exFrame' : Frame :=
  { dt := 900000000000,
    cols := [("p".toList, [some 1, some 2, none, some 7]), ("q".toList, [some 10, some 20, some 30, none])] }

example : AgreeUpTo 2 exFrame exFrame' ∧ ∀ tr ∈ exChain, NonNegLags tr := by
  refine ⟨⟨rfl, List.Forall₂.cons ⟨rfl, ?_⟩ (List.Forall₂.cons ⟨rfl, ?_⟩ List.Forall₂.nil)⟩, ?_⟩
  · refine ⟨by decide, by decide, fun s hs => ?_⟩
    interval_cases s <;> rfl
  · refine ⟨by decide, by decide, fun s hs => ?_⟩
    interval_cases s <;> rfl
  · intro tr htr
    simp only [exChain, List.mem_cons, List.not_mem_nil, or_false] at htr
    rcases htr with rfl | rfl <;> intro ls hls l hl <;> (injection hls with hls; subst hls; simp at hl; omega)

example : ∃ trs out, applyAll exChain exFrame = .ok (trs, out) ∧
    out.cols[3]? = some ("q_lag_001_30m_sum_lag_000".toList, [none, none, some 30, some 50, some 70]) := by
  refine ⟨_, _, rfl, ?_⟩
  decide +kernel

example : applyPar exChain exFrame = .error .assertionError := rfl

/-- A target four rows ahead, aggregated over two rows. -/
def exTarget : Transformer :=
  { names := ["q".toList], functions := [exSum], agg := .steps 2, lags := some [-4, -2], relative := false, dtArg := none }

example : FutureOnly exTarget exFrame := by
  refine ⟨[-4, -2], rfl, ?_⟩
  intro l hl
  simp only [List.mem_cons, List.not_mem_nil, or_false] at hl
  rcases hl with rfl | rfl <;> exact ⟨by decide, fun _ => by decide⟩

/-- Fitted on a 15 minute grid, used on an hourly one: `lag_001` is the present value. -/
def exSticky : Transformer :=
  { names := ["q".toList], functions := [], agg := .unset, lags := some [1, 2], relative := true, dtArg := none }

example : ∃ tr' F' ms tr'' G' ms', transform exSticky false exFrame = .ok (tr', F', ms) ∧
    transform tr' false { exFrame with dt := 3600000000000 } = .ok (tr'', G', ms') ∧
    G'.cols[0]? = some ("q_lag_001".toList, [some 10, some 20, some 30, some 40, some 50]) := by
  refine ⟨_, _, _, _, _, _, rfl, rfl, ?_⟩
  decide +kernel

end PyF.Transform
