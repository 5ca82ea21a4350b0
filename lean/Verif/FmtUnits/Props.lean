import Verif.FmtUnits.Lemmas
import Mathlib.Algebra.Order.Field.Rat
import Mathlib.Algebra.BigOperators.Group.List.Basic
import Mathlib.Tactic.Ring
import Mathlib.Tactic.FieldSimp
import Mathlib.Tactic.Linarith

namespace PyF.FmtUnits
open PyF.Names PyF.Transform PyF.Fmt

variable {I J : Type} [DecidableEq I] [DecidableEq J]

/-- C272 (units): if every aggregation function commutes with a change of units `u` of the raw data, then `transform`
on the data in the new units gives the features and targets of the old data in the new units, at the same rows and
with the same column names, or the same exception. -/
theorem C272_units (u : ℚ → ℚ) (fm : Formatter) (hx : ∀ tr ∈ fm.transformers, UnitfulTr u tr)
    (hy : ∀ tr ∈ fm.targets, UnitfulTr u tr) (idx : List I) (F : Frame) (rt : Bool) :
    transformX fm idx (frameIn u F) rt
      = (transformX fm idx F rt).map (fun r => (r.1, iframeIn u r.2.1, iframeIn u r.2.2)) := by
  unfold transformX
  rw [applyAll_in u _ hx]
  cases applyAll fm.transformers F with
  | error e => rfl
  | ok r =>
    obtain ⟨trs, X⟩ := r
    simp only [Except.map]
    have hX : (frameIn u X).cols = colsIn u X.cols := rfl
    cases rt with
    | true =>
      simp only [if_true]
      rw [targetCols_in u _ hy]
      cases targetCols fm.targets X with
      | error e => rfl
      | ok r =>
        obtain ⟨tts, T⟩ := r
        simp only [Except.map, hX, newCols_in, notNa_in, keepCols_in, iframeIn, IFrame.keepRows]
        cases fm.augment <;> simp [keepCols_in]
    | false =>
      simp only [Bool.false_eq_true, if_false, hX, newCols_in, notNa_in, iframeIn, IFrame.keepRows]
      cases fm.augment <;> simp only [if_true, if_false, Bool.false_eq_true, keepCols_in] <;> rfl

theorem sum_affine (a b : ℚ) (l : List ℚ) : (l.map (fun v => a * v + b)).sum = a * l.sum + b * l.length := by
  induction l with
  | nil => simp
  | cons x l ih => simp only [List.map_cons, List.sum_cons, ih, List.length_cons]; push_cast; ring

theorem foldl_max_affine (a b : ℚ) (ha : 0 ≤ a) (l : List ℚ) (x : ℚ) :
    (l.map (fun v => a * v + b)).foldl max (a * x + b) = a * l.foldl max x + b := by
  induction l generalizing x with
  | nil => rfl
  | cons y l ih =>
    simp only [List.map_cons, List.foldl_cons]
    rw [← ih, max_add_add_right, mul_max_of_nonneg _ _ ha]

theorem foldl_min_affine (a b : ℚ) (ha : 0 ≤ a) (l : List ℚ) (x : ℚ) :
    (l.map (fun v => a * v + b)).foldl min (a * x + b) = a * l.foldl min x + b := by
  induction l generalizing x with
  | nil => rfl
  | cons y l ih =>
    simp only [List.map_cons, List.foldl_cons]
    rw [← ih, min_add_add_right, mul_min_of_nonneg _ _ ha]

/-- C272 (which functions): the mean commutes with every affine change of units, maximum and minimum with every
increasing one. The sum commutes exactly with the changes that keep the zero. -/
theorem C272_functions (a b : ℚ) :
    Unitful (fun v => a * v + b) meanOf ∧
    (0 ≤ a → Unitful (fun v => a * v + b) maxOf ∧ Unitful (fun v => a * v + b) minOf) ∧
    (Unitful (fun v => a * v + b) sumOf ↔ b = 0) := by
  refine ⟨?_, ?_, ?_, ?_⟩
  · intro l
    unfold meanOf
    by_cases h : l = []
    · simp [h]
    · have hl : (l.length : ℚ) ≠ 0 := by
        simpa using h
      rw [if_neg (by simpa using h), if_neg h, sum_affine, List.length_map]
      simp only [Option.map_some, Option.some.injEq]
      field_simp
  · intro ha
    constructor
    · intro l
      cases l with
      | nil => rfl
      | cons x l => simp only [List.map_cons, maxOf, Option.map_some, foldl_max_affine a b ha]
    · intro l
      cases l with
      | nil => rfl
      | cons x l => simp only [List.map_cons, minOf, Option.map_some, foldl_min_affine a b ha]
  · intro h
    have := h [0, 0]
    simp only [sumOf, List.map_cons, List.map_nil, List.cons_ne_nil, if_false, Option.map_some, Option.some.injEq,
      List.sum_cons, List.sum_nil] at this
    linarith
  · intro h l
    subst h
    unfold sumOf
    by_cases hl : l = []
    · simp [hl]
    · rw [if_neg (by simpa using hl), if_neg hl, sum_affine]
      simp

theorem mapM_samples (c : List ℚ) :
    ((List.range c.length).map (fun (j : Nat) => (j : Int))).mapM (sample (c.map some)) = some c := by
  have h : ∀ (n : Nat), n ≤ c.length →
      ((List.range n).map (fun (j : Nat) => (j : Int))).mapM (sample (c.map some)) = some (c.take n) := by
    intro n
    induction n with
    | zero => intro _; rfl
    | succ n ih =>
      intro hn
      rw [List.range_succ, List.map_append, List.mapM_append, ih (by omega)]
      have : sample (c.map some) (n : Int) = some (c[n]'(by omega)) := by
        rw [sample_nat, List.getElem?_map, List.getElem?_eq_getElem (by omega)]; rfl
      simp only [List.map_cons, List.map_nil, List.mapM_cons, List.mapM_nil, this]
      rw [List.take_succ_eq_append_getElem (by omega)]
      rfl
  simpa using h c.length le_rfl

/-- C272 (converse): a moving aggregation over `w` whole steps follows a change of units for all data if and only if
its function does so on every list of `w` observations. -/
theorem C272_moving_iff (u : ℚ → ℚ) (f : List ℚ → Option ℚ) (dt w : Nat) (hdt : 0 < dt) (hw : 0 < w) :
    (∀ c : Col, rolling dt (w * dt) w f (colIn u c) = colIn u (rolling dt (w * dt) w f c)) ↔
      ∀ l : List ℚ, l.length = w → f (l.map u) = (f l).map u := by
  have key : ∀ (l : List ℚ), l.length = w → (rolling dt (w * dt) w f (l.map some))[w - 1]? = some (f l) := by
    intro l hl
    rw [rolling_get _ _ _ _ _ _ (by rw [List.length_map]; omega), rollAt_whole dt w hdt hw]
    have e : (List.range w).map (fun (j : Nat) => ((w - 1 : Nat) : Int) - w + 1 + j)
        = (List.range l.length).map (fun (j : Nat) => (j : Int)) := by
      rw [hl]
      apply List.map_congr_left
      intro j _
      omega
    rw [e, mapM_samples]
    rfl
  constructor
  · intro h l hl
    have h1 := h (l.map some)
    have h2 := key (l.map u) (by simpa using hl)
    have e : colIn u (l.map some) = (l.map u).map some := by simp [colIn]
    rw [e] at h1
    rw [h1] at h2
    unfold colIn at h2
    rw [List.getElem?_map, key l hl] at h2
    simpa using h2.symm
  · intro h c
    unfold rolling
    rw [colIn_length]
    simp only [colIn, List.map_map]
    apply List.map_congr_left
    intro t _
    simp only [Function.comp]
    rw [show List.map (Option.map u) c = colIn u c from rfl]
    rw [rollAt_whole dt w hdt hw, rollAt_whole dt w hdt hw]
    have e : ∀ (is : List Int), is.mapM (sample (colIn u c)) = (is.mapM (sample c)).map (List.map u) := by
      intro is
      induction is with
      | nil => rfl
      | cons i is ih =>
        rw [List.mapM_cons, List.mapM_cons, ih, sample_in]
        cases sample c i with
        | none => rfl
        | some v =>
          cases is.mapM (sample c) <;> rfl
    rw [e]
    have hlen : ∀ (is : List Int) (l : List ℚ), is.mapM (sample c) = some l → l.length = is.length := by
      intro is
      induction is with
      | nil => intro l hl; cases hl; rfl
      | cons i is ih =>
        intro l hl
        rw [List.mapM_cons] at hl
        cases hs : sample c i with
        | none => rw [hs] at hl; cases hl
        | some v =>
          cases hm : is.mapM (sample c) with
          | none => rw [hs, hm] at hl; cases hl
          | some l' =>
            rw [hs, hm] at hl
            cases hl
            simp [ih l' hm]
    cases hm : ((List.range w).map (fun (j : Nat) => (t : Int) - w + 1 + j)).mapM (sample c) with
    | none => rfl
    | some l =>
      have := hlen _ l hm
      exact h l (by simpa using this)

/-! ### C273 -/

theorem lookup_relabel {β : Type} (g : I → J) (hg : Function.Injective g) (idx : List I) (m : List β) (i : I) :
    ((idx.map g).zip m).lookup (g i) = (idx.zip m).lookup i := by
  induction idx generalizing m with
  | nil => rfl
  | cons a idx ih =>
    cases m with
    | nil => rfl
    | cons b m =>
      simp only [List.map_cons, List.zip_cons_cons, List.lookup_cons]
      by_cases h : i = a
      · subst h; simp
      · have h1 : (g i == g a) = false := by simpa using fun e => h (hg e)
        have h2 : (i == a) = false := by simpa using h
        rw [h1, h2]
        exact ih m

theorem alignAnd_relabel (g : I → J) (hg : Function.Injective g) (idx1 : List I) (m1 : List Bool) (idx2 : List I)
    (m2 : List Bool) : alignAnd (idx1.map g) m1 (idx2.map g) m2 = alignAnd idx1 m1 idx2 m2 := by
  unfold alignAnd
  rw [List.zipWith_map_left]
  simp only [lookup_relabel g hg]

/-- C273 (time stamps): giving the rows of the raw frame other distinct labels, for instance the time stamps of another
week, changes the labels of the rows of features and targets accordingly and nothing else: values, columns, kept rows
and exceptions are the same. -/
theorem C273_time_stamps (g : I → J) (hg : Function.Injective g) (fm : Formatter) (idx : List I) (F : Frame)
    (rt : Bool) :
    transformX fm (idx.map g) F rt
      = (transformX fm idx F rt).map (fun r => (r.1, relabel g r.2.1, relabel g r.2.2)) := by
  unfold transformX
  cases applyAll fm.transformers F with
  | error e => rfl
  | ok r =>
    obtain ⟨trs, X⟩ := r
    simp only [List.length_map]
    cases rt with
    | true =>
      simp only [if_true]
      cases targetCols fm.targets X with
      | error e => rfl
      | ok r =>
        obtain ⟨tts, T⟩ := r
        simp only [Except.map, relabel, IFrame.keepRows, keep_map, alignAnd_relabel g hg, List.length_map]
        cases fm.augment <;> simp [keep_map]
    | false =>
      simp only [Bool.false_eq_true, if_false, Except.map, relabel, IFrame.keepRows]
      cases fm.augment <;> simp [keep_map]

end PyF.FmtUnits
