import Verif.Summary.Model
import Verif.Quantile.Props
import Verif.Hybrid.Lemmas

/-! Lemmas about the loops of `summary_scores`. -/

namespace PyF.Summary
open PyF

/-- Specification of a group: the positions whose label is present and equal to `l`, in order. -/
def group (agg : List (Option Lab)) (l : Lab) : List Nat :=
  (List.range agg.length).filter (fun (i : Nat) => match agg.getD i none with
    | none => false
    | some l' => decide (l' = l))

theorem members_eq (agg : List (Option Lab)) (l : Lab) : members agg l = group agg l := by
  unfold members group
  apply List.filter_congr
  intro i hi
  rw [List.mem_range] at hi
  rw [List.getElem?_eq_getElem hi, List.getD_eq_getElem _ _ hi]
  cases agg[i] with
  | none => simp
  | some l' => simp

/-- Specification of few values: a list shorter than `q` contains every value present. -/
def Few (vals : List (Option Lab)) (q : Nat) : Prop := ∃ s : List Lab, s.length < q ∧ ∀ v, some v ∈ vals → v ∈ s

theorem few_iff (c : IdxCol) (q : Nat) : c.distinct < q ↔ Few c.vals q := by
  unfold IdxCol.distinct
  constructor
  · intro h
    refine ⟨_, h, fun v hv => ?_⟩
    rw [List.mem_dedup, List.mem_filterMap]
    exact ⟨some v, hv, rfl⟩
  · rintro ⟨s, hs, h⟩
    refine lt_of_le_of_lt ?_ hs
    apply List.Subperm.length_le
    apply List.subperm_of_subset (List.nodup_dedup _)
    intro v hv
    rw [List.mem_dedup, List.mem_filterMap] at hv
    obtain ⟨a, ha, e⟩ := hv
    rw [id_eq] at e
    subst e
    exact h v ha

/-- A frame with other column labels. -/
def DF.relabel (d : DF) (c : List String) : DF := { d with cols := c }

/-- The score of one metric for one list of labels, of two frames. -/
def pure1 (dx dt : DF) (k : Metric) (agg : List (Option Lab)) : Except PyErr Score :=
  aggregate dx.index.length dt.cols.length agg (errTable k dx.index.length dt.cols.length dx.val dt.val)

/-- The scores of one metric for all index columns. -/
def pureIdx (dx dt : DF) (k : Metric) : List (String × List (Option Lab)) → Except PyErr (List (String × Score))
  | [] => .ok []
  | (nm, agg) :: rest =>
    match pure1 dx dt k agg with
    | .error e => .error e
    | .ok s =>
      match pureIdx dx dt k rest with
      | .error e => .error e
      | .ok out => .ok ((nm, s) :: out)

/-- The scores of all metrics. -/
def pureMetrics (dx dt : DF) (ls : List (String × List (Option Lab))) :
    List (String × List (String × Score)) → List (String × Metric) → Except PyErr (List (String × List (String × Score)))
  | acc, [] => .ok acc
  | acc, (nm, k) :: rest =>
    match pureIdx dx dt k ls with
    | .error e => .error e
    | .ok [] => .error .valueError
    | .ok (s :: ss) => pureMetrics dx dt ls (assign acc nm (s :: ss)) rest

theorem summaryScore_df (dx dt : DF) (h : dx.cols.length = dt.cols.length) (k : Metric) (agg : List (Option Lab)) :
    summaryScore (.df dx) (.df dt) k agg = (.df (dx.relabel dt.cols), pure1 dx dt k agg) := by
  unfold summaryScore prepare
  simp only [if_pos h]
  rfl

theorem pure1_relabel (dx dt : DF) (c : List String) (k : Metric) (agg : List (Option Lab)) : pure1 (dx.relabel c) dt k agg = pure1 dx dt k agg := rfl

theorem pureIdx_relabel (dx dt : DF) (c : List String) (k : Metric) (ls : List (String × List (Option Lab))) :
    pureIdx (dx.relabel c) dt k ls = pureIdx dx dt k ls := by
  induction ls with
  | nil => rfl
  | cons p ls ih => simp only [pureIdx, pure1_relabel, ih]

theorem pureMetrics_relabel (dx dt : DF) (c : List String) (ls : List (String × List (Option Lab))) (acc : List (String × List (String × Score)))
    (ms : List (String × Metric)) : pureMetrics (dx.relabel c) dt ls acc ms = pureMetrics dx dt ls acc ms := by
  induction ms generalizing acc with
  | nil => rfl
  | cons p ms ih =>
    simp only [pureMetrics, pureIdx_relabel]
    split <;> first | rfl | exact ih _

theorem idxLoop_df (dx dt : DF) (h : dx.cols.length = dt.cols.length) (k : Metric) (ls : List (String × List (Option Lab))) :
    (idxLoop (.df dt) k (.df dx) ls).2 = pureIdx dx dt k ls ∧
    (idxLoop (.df dt) k (.df dx) ls).1 = .df (if ls = [] then dx else dx.relabel dt.cols) := by
  induction ls generalizing dx with
  | nil => exact ⟨rfl, rfl⟩
  | cons p ls ih =>
    obtain ⟨nm, agg⟩ := p
    simp only [idxLoop, pureIdx, summaryScore_df dx dt h]
    have := ih (dx.relabel dt.cols) rfl
    rw [pureIdx_relabel] at this
    cases hp : pure1 dx dt k agg with
    | error e => exact ⟨rfl, by simp⟩
    | ok s =>
      simp only
      generalize idxLoop (.df dt) k (.df (dx.relabel dt.cols)) ls = r at this ⊢
      obtain ⟨r1, r2⟩ := r
      simp only at this
      rw [← this.1]
      have h2 : r1 = .df (dx.relabel dt.cols) := by
        rw [this.2]
        split <;> rfl
      cases r2 with
      | error e => exact ⟨rfl, by simp [h2]⟩
      | ok o => exact ⟨rfl, by simp [h2]⟩

theorem metricLoop_df (dx dt : DF) (h : dx.cols.length = dt.cols.length) (ls : List (String × List (Option Lab)))
    (acc : List (String × List (String × Score))) (ms : List (String × Metric)) :
    (metricLoop (.df dt) ls (.df dx) acc ms).2 = pureMetrics dx dt ls acc ms ∧
    (metricLoop (.df dt) ls (.df dx) acc ms).1 = .df (if ls = [] ∨ ms = [] then dx else dx.relabel dt.cols) := by
  induction ms generalizing dx acc with
  | nil => exact ⟨rfl, by simp [metricLoop]⟩
  | cons p ms ih =>
    obtain ⟨nm, k⟩ := p
    simp only [metricLoop, pureMetrics]
    have := idxLoop_df dx dt h k ls
    generalize idxLoop (.df dt) k (.df dx) ls = r at this ⊢
    obtain ⟨r1, r2⟩ := r
    simp only at this
    obtain ⟨e1, e2⟩ := this
    rw [← e1]
    cases r2 with
    | error e => exact ⟨rfl, by simp [e2]⟩
    | ok o =>
      cases o with
      | nil => exact ⟨rfl, by simp [e2]⟩
      | cons s ss =>
        simp only
        subst e2
        by_cases hls : ls = []
        · rw [hls] at e1
          simp [pureIdx] at e1
        · simp only [if_neg hls]
          have h3 := ih (dx.relabel dt.cols) rfl (assign acc nm (s :: ss))
          rw [pureMetrics_relabel] at h3
          refine ⟨h3.1, ?_⟩
          rw [h3.2]
          simp only [hls, false_or, reduceCtorEq, or_self, if_false]
          split <;> rfl

/-- A call with two frames, without mask. -/
theorem summaryScores_df (dx dt : DF) (hi : dx.index = dt.index) (h : dx.cols.length = dt.cols.length) (ms : List (String × Metric)) (idxs : Idxs) (q : Nat)
    (ls : List (String × List (Option Lab))) (hl : labels idxs.cols q = .ok ls) :
    summaryScores (.df dx) (.df dt) ms idxs none q =
      ⟨some (if ls = [] ∨ ms = [] then dx.cols else dt.cols), pureMetrics dx dt ls [] ms⟩ := by
  unfold summaryScores indexes checkIndexes
  simp only [hi, List.cons_append, List.nil_append, List.any_cons, List.any_nil, ne_eq, not_true_eq_false, decide_false, Bool.or_false, Bool.false_eq_true,
    if_false, hl]
  obtain ⟨e1, e2⟩ := metricLoop_df dx dt h ls [] ms
  rw [e1, e2]
  congr 1
  simp only [Arg.cols]
  split <;> rfl

/-- A masked frame. -/
def DF.masked (d : DF) (k : Mask) : DF :=
  { d with val := fun i j => if i < d.index.length ∧ j < d.cols.length then
      (if k.val (if k.index.length = 1 then 0 else i) (if k.m = 1 then 0 else j) then d.val i j else none) else none }

/-- A call with two frames and a mask of the same shape. -/
theorem summaryScores_mask (dx dt : DF) (k : Mask) (hi : dx.index = dt.index) (hk : k.index = dt.index) (h : dx.cols.length = dt.cols.length)
    (hkm : k.m = dt.cols.length) (ms : List (String × Metric)) (idxs : Idxs) (q : Nat)
    (ls : List (String × List (Option Lab))) (hl : labels idxs.cols q = .ok ls) :
    summaryScores (.df dx) (.df dt) ms idxs (some k) q = ⟨some dx.cols, pureMetrics (dx.masked k) (dt.masked k) ls [] ms⟩ := by
  have hx : maskMul (.df dx) k = .ok (.df (dx.masked k)) := by
    unfold maskMul DF.masked
    simp only [hk, hkm, hi, h, and_self, true_or, if_true]
  have ht : maskMul (.df dt) k = .ok (.df (dt.masked k)) := by
    unfold maskMul DF.masked
    simp only [hk, hkm, and_self, true_or, if_true]
  unfold summaryScores indexes checkIndexes
  simp only [hi, hk, List.cons_append, List.nil_append, List.any_cons, List.any_nil, ne_eq, not_true_eq_false, decide_false, Bool.or_false, Bool.false_eq_true,
    if_false, hx, ht, hl]
  obtain ⟨e1, _⟩ := metricLoop_df (dx.masked k) (dt.masked k) h ls [] ms
  rw [e1]
  rfl

end PyF.Summary
