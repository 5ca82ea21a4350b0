import Verif.FmtNorm.Model
import Verif.Normalize.Props
import Mathlib.Data.List.MinMax
import Mathlib.Order.Bounds.Basic

namespace PyF.FmtNorm

open PyF PyF.Names PyF.Normalize

variable {N : Type}

/-! ### Specification -/

/-- A feature column a transformer made out of a normalised target. -/
def Related (targets : List Str) (ms : List Meta) (c : Str) : Prop := ∃ m ∈ ms, ∃ t ∈ targets, (c, t) ∈ m

/-- A column of some transformer. -/
def Derived (ms : List Meta) (c : Str) : Prop := ∃ m ∈ ms, ∃ n, (c, n) ∈ m

/-- How often the transformers list a column. -/
def listed (ms : List Meta) (c : Str) : Nat := ((ms.flatten.map Prod.fst).count c)

/-- A frame has a column. -/
def Has (x : Frame) (c : Str) : Prop := ∃ col, (c, col) ∈ x

/-! ### Lemmas -/

theorem nrColumns_eq (t : Str) (m : Meta) : nrColumns t m = m.map Prod.fst := by
  unfold nrColumns
  rw [List.map_map]
  rfl

theorem flatMap_nrColumns (t : Str) (ms : List Meta) : ms.flatMap (nrColumns t) = ms.flatten.map Prod.fst := by
  induction ms with
  | nil => rfl
  | cons m ms ih => rw [List.flatMap_cons, ih, nrColumns_eq, List.flatten_cons, List.map_append]

theorem featurePasses_eq (ts : List Str) (ms : List Meta) : featurePasses ts ms = ts.dedup.flatMap (fun _ => ms.flatten.map Prod.fst) := by
  unfold featurePasses
  congr 1
  funext t
  exact flatMap_nrColumns t ms

theorem mem_featurePasses (ts : List Str) (ms : List Meta) (c : Str) : c ∈ featurePasses ts ms ↔ ts ≠ [] ∧ Derived ms c := by
  rw [featurePasses_eq, List.mem_flatMap]
  constructor
  · rintro ⟨t, ht, hc⟩
    refine ⟨fun e => ?_, ?_⟩
    · rw [e] at ht; simp at ht
    · obtain ⟨p, hp, rfl⟩ := List.mem_map.1 hc
      obtain ⟨m, hm, hpm⟩ := List.mem_flatten.1 hp
      exact ⟨m, hm, p.2, hpm⟩
  · rintro ⟨hne, m, hm, n, hn⟩
    obtain ⟨t, ht⟩ := List.exists_mem_of_ne_nil _ (fun e => hne ((List.dedup_eq_nil _).1 e) : ts.dedup ≠ [])
    exact ⟨t, ht, List.mem_map.2 ⟨(c, n), List.mem_flatten.2 ⟨m, hm, hn⟩, rfl⟩⟩

theorem names_all_iff (names : List Str) (x : Frame) : (names.all (fun n => x.any (fun p => p.1 = n))) = true ↔ ∀ n ∈ names, Has x n := by
  simp only [List.all_eq_true, List.any_eq_true, decide_eq_true_eq]
  constructor
  · intro h n hn
    obtain ⟨p, hp, rfl⟩ := h n hn
    exact ⟨p.2, hp⟩
  · intro h n hn
    obtain ⟨col, hc⟩ := h n hn
    exact ⟨_, hc, rfl⟩

theorem assignAll_error (g : N → ℚ → ℚ) (rows : List N) (cs : List Str) (y : Frame) (e : PyErr) (h : assignAll g rows cs y = .error e) : e = .keyError := by
  induction cs generalizing y with
  | nil => cases h
  | cons c cs ih =>
    unfold assignAll assign at h
    by_cases hin : y.any (fun p => p.1 = c) = true
    · simp only [if_pos hin] at h
      exact ih _ h
    · simp only [if_neg hin] at h
      cases h; rfl

/-! ### C147: normalising the features -/

/-- C147 (values): a normalised frame of features has the same columns; every column any transformer made is passed through the expression once per
distinct normalised target and listing, whatever it was made of; other columns are unchanged. -/
theorem C147_feature_values (s : Setting N) (g : N → ℚ → ℚ) (hg : s.norm = some g) (names : List Str) (ms : List Meta) (x x' : Frame) (y y' : Option Frame)
    (hx : WF s.rows.length x) (h : normalizeBoth s names ms none x y = .ok (y', x')) :
    Passed g s.rows (fun c => s.targetNames.dedup.length * listed ms c) x x' := by
  unfold normalizeBoth at h
  simp only [hg, Option.getD_none] at h
  by_cases hn : (names.all (fun n => x.any (fun p => p.1 = n))) = true
  · simp only [if_pos hn] at h
    cases ht : normTarget s g y with
    | error e => rw [ht] at h; cases h
    | ok y1 =>
      rw [ht] at h
      simp only at h
      cases ha : assignAll g s.rows (featurePasses s.targetNames ms) x with
      | error e => rw [ha] at h; cases h
      | ok x1 =>
        rw [ha] at h
        simp only [Except.ok.injEq, Prod.mk.injEq] at h
        rw [← h.2]
        have := assignAll_passed g s.rows _ (fun _ => 0) x x x1 (Passed.refl g s.rows x hx) ha
        rw [featurePasses_eq] at this
        simp only [Nat.zero_add, count_flatMap_const] at this
        exact this
  · simp only [if_neg hn] at h
    cases h

/-- C147 (when it is right): with one normalised target, columns listed once and every transformer working on that target only, exactly the features of the target
are normalised, once. -/
theorem C147_right (s : Setting N) (g : N → ℚ → ℚ) (hg : s.norm = some g) (names : List Str) (ms : List Meta) (x x' : Frame) (y y' : Option Frame)
    (hx : WF s.rows.length x) (h : normalizeBoth s names ms none x y = .ok (y', x'))
    (h1 : s.targetNames.dedup.length = 1) (hnd : (ms.flatten.map Prod.fst).Nodup) (hall : ∀ m ∈ ms, ∀ p ∈ m, p.2 ∈ s.targetNames) :
    List.Forall₂ (fun p q : Str × List ℚ => q.1 = p.1 ∧ (Related s.targetNames ms p.1 → q.2 = List.zipWith g s.rows p.2) ∧ (¬ Related s.targetNames ms p.1 → q.2 = p.2)) x x' := by
  have hp := C147_feature_values s g hg names ms x x' y y' hx h
  unfold Passed at hp
  rw [List.forall₂_iff_get] at hp ⊢
  refine ⟨hp.1, fun i h1' h2' => ?_⟩
  obtain ⟨e1, e2⟩ := hp.2 i h1' h2'
  have hlen : (x.get ⟨i, h1'⟩).2.length = s.rows.length := hx _ (List.get_mem _ _)
  refine ⟨e1, fun hr => ?_, fun hr => ?_⟩
  · rw [e2]
    obtain ⟨m, hm, t, _, hc⟩ := hr
    have : listed ms (x.get ⟨i, h1'⟩).1 = 1 := by
      unfold listed
      exact List.count_eq_one_of_mem hnd (List.mem_map.2 ⟨_, List.mem_flatten.2 ⟨m, hm, hc⟩, rfl⟩)
    simp only [h1, this]
    rfl
  · rw [e2]
    have : listed ms (x.get ⟨i, h1'⟩).1 = 0 := by
      unfold listed
      rw [List.count_eq_zero]
      intro hc
      obtain ⟨p, hp', he⟩ := List.mem_map.1 hc
      obtain ⟨m, hm, hpm⟩ := List.mem_flatten.1 hp'
      exact hr ⟨m, hm, p.2, hall m hm p hpm, by rw [← he]; exact hpm⟩
    simp only [this, Nat.mul_zero]
    exact zipWith_right_id _ _ hlen

/-- C147 (defect): a feature unrelated to any normalised target (say, a lag of the temperature) is normalised with the target's normalisers all the same. -/
theorem C147_unrelated_scaled (s : Setting N) (g : N → ℚ → ℚ) (hg : s.norm = some g) (names : List Str) (ms : List Meta) (x x' : Frame) (y y' : Option Frame)
    (hx : WF s.rows.length x) (h : normalizeBoth s names ms none x y = .ok (y', x'))
    (h1 : s.targetNames.dedup.length = 1) (hnd : (ms.flatten.map Prod.fst).Nodup) (c : Str) (hc : Derived ms c) (i : ℕ) (col : List ℚ) (hi : x[i]? = some (c, col)) :
    x'[i]? = some (c, List.zipWith g s.rows col) := by
  have hp := C147_feature_values s g hg names ms x x' y y' hx h
  unfold Passed at hp
  rw [List.forall₂_iff_get] at hp
  obtain ⟨hlt, he⟩ := List.getElem?_eq_some_iff.1 hi
  have hlt' : i < x'.length := hp.1 ▸ hlt
  obtain ⟨e1, e2⟩ := hp.2 i hlt hlt'
  simp only [List.get_eq_getElem, he] at e1 e2
  obtain ⟨m, hm, n, hn⟩ := hc
  have : listed ms c = 1 := by
    unfold listed
    exact List.count_eq_one_of_mem hnd (List.mem_map.2 ⟨_, List.mem_flatten.2 ⟨m, hm, hn⟩, rfl⟩)
  rw [h1, this] at e2
  rw [List.getElem?_eq_getElem hlt']
  congr 1
  exact Prod.ext e1 e2

/-! ### C148: denormalising forecasts -/

/-- C148 (value): when it succeeds, the denormalised forecast depends on the normaliser values of the rows and on the forecast only. -/
theorem C148_value (s : Setting N) (names : List Str) (ms : List Meta) (x y r : Frame) (h : denormalizeBoth s names ms x y = .ok r) :
    denormalize s y = .ok r := by
  unfold denormalizeBoth at h
  unfold denormalize
  cases hd : s.denorm with
  | none => rw [hd] at h; exact h
  | some d =>
    simp only [hd] at h ⊢
    unfold normalizeBoth at h
    unfold normalize
    cases hg : s.norm with
    | none => simp only [hg] at h ⊢; exact h
    | some g =>
      simp only [hg, Option.getD_some] at h ⊢
      by_cases hn : (names.all (fun n => x.any (fun p => p.1 = n))) = true
      · simp only [if_pos hn, normTarget] at h
        cases hi : inner s d y with
        | error e => rw [hi] at h; cases h
        | ok y1 =>
          rw [hi] at h
          simp only [Except.map] at h
          cases ha : assignAll d s.rows (featurePasses s.targetNames ms) x with
          | error e => rw [ha] at h; cases h
          | ok x1 => rw [ha] at h; exact h
      · simp only [if_neg hn] at h
        cases h

/-- C148 (needs, defect): with both expressions set and a normalised target, a forecast can be denormalised iff its own columns, the normalisers and **every feature of every
transformer** are there: features that were never needed (dropped by feature selection, or renumbered by a scaler) make it a KeyError. -/
theorem C148_ok_iff (s : Setting N) (g d : N → ℚ → ℚ) (hg : s.norm = some g) (hd : s.denorm = some d) (hne : s.targetNames ≠ []) (names : List Str) (ms : List Meta) (x y : Frame) :
    (∃ r, denormalizeBoth s names ms x y = .ok r) ↔ (∀ n ∈ names, Has x n) ∧ (∀ c ∈ s.metaCols, Has y c) ∧ (∀ c, Derived ms c → Has x c) := by
  have hin : (∃ r, inner s d y = .ok r) ↔ ∀ c ∈ s.metaCols, Has y c := by
    unfold inner
    rw [assignAll_ok_iff]
    constructor
    · intro h c hc
      obtain ⟨n, hn⟩ := List.exists_mem_of_ne_nil _ (fun e => hne ((List.dedup_eq_nil _).1 e) : s.targetNames.dedup ≠ [])
      exact h c (List.mem_flatMap.2 ⟨n, hn, hc⟩)
    · intro h c hc
      obtain ⟨_, _, hc⟩ := List.mem_flatMap.1 hc
      exact h c hc
  have hft : (∃ r, assignAll d s.rows (featurePasses s.targetNames ms) x = .ok r) ↔ ∀ c, Derived ms c → Has x c := by
    rw [assignAll_ok_iff]
    constructor
    · intro h c hc
      exact h c ((mem_featurePasses _ _ _).2 ⟨hne, hc⟩)
    · intro h c hc
      exact h c ((mem_featurePasses _ _ _).1 hc).2
  rw [← hin, ← hft, ← names_all_iff]
  unfold denormalizeBoth normalizeBoth
  simp only [hg, hd, Option.getD_some]
  by_cases hn : (names.all (fun n => x.any (fun p => p.1 = n))) = true
  · simp only [if_pos hn, normTarget]
    cases hi : inner s d y with
    | error e => simp [Except.map]
    | ok y1 =>
      simp only [Except.map]
      cases ha : assignAll d s.rows (featurePasses s.targetNames ms) x with
      | error e => simp
      | ok x1 => simp [hn]
  · simp only [if_neg hn]
    simp [hn]

/-- C148 (the exception): it is always a KeyError. -/
theorem C148_error (s : Setting N) (names : List Str) (ms : List Meta) (x y : Frame) (e : PyErr) (h : denormalizeBoth s names ms x y = .error e) : e = .keyError := by
  unfold denormalizeBoth at h
  cases hd : s.denorm with
  | none => rw [hd] at h; cases h
  | some d =>
    simp only [hd] at h
    unfold normalizeBoth at h
    cases hg : s.norm with
    | none => simp only [hg] at h; cases h
    | some g =>
      simp only [hg, Option.getD_some] at h
      by_cases hn : (names.all (fun n => x.any (fun p => p.1 = n))) = true
      · simp only [if_pos hn, normTarget] at h
        cases hi : inner s d y with
        | error e' =>
          rw [hi] at h
          simp only [Except.map, Except.error.injEq] at h
          rw [← h]
          exact assignAll_error _ _ _ _ _ hi
        | ok y1 =>
          rw [hi] at h
          simp only [Except.map] at h
          cases ha : assignAll d s.rows (featurePasses s.targetNames ms) x with
          | error e' =>
            rw [ha] at h
            simp only [Except.error.injEq] at h
            rw [← h]
            exact assignAll_error _ _ _ _ _ ha
          | ok x1 => rw [ha] at h; cases h
      · simp only [if_neg hn] at h
        cases h; rfl

/-! ### C149: adding normalisers -/

/-- C149 (effect): a normaliser is added iff its name is new, there is one target, and the lags are either absent or a **numpy array** of one positive number; it then
comes last and the others are untouched. Numbers and lists, the documented type, always raise. -/
theorem C149_added_iff (old new : List Normalizer) (ts : List Str) (l : Lags) (name : Str) :
    (addNormalizer old ts l name = .ok new ∧ new ≠ old) ↔
      (∀ n ∈ old, n.name ≠ name) ∧ ∃ t, ts = [t] ∧
        ((l = .none ∧ new = old ++ [⟨name, t, none⟩]) ∨ ∃ k, 0 < k ∧ l = .array [k] ∧ new = old ++ [⟨name, t, some [k]⟩]) := by
  unfold addNormalizer
  by_cases hany : old.any (fun n => n.name = name) = true
  · rw [if_pos hany]
    constructor
    · rintro ⟨h, hne⟩
      cases h
      exact absurd rfl hne
    · rintro ⟨h, _⟩
      obtain ⟨n, hn, he⟩ := List.any_eq_true.1 hany
      exact absurd (by simpa using he) (h n hn)
  · rw [if_neg hany]
    have hnew : ∀ n ∈ old, n.name ≠ name := fun n hn he => hany (List.any_eq_true.2 ⟨n, hn, by simpa using he⟩)
    have hlen : ∀ a : Normalizer, old ++ [a] ≠ old := fun a e => by
      have := congrArg List.length e
      simp at this
    match ts with
    | [] => simp
    | [t] =>
      constructor
      · rintro ⟨h, _⟩
        refine ⟨hnew, t, rfl, ?_⟩
        cases l with
        | none => left; simp only [Lags.wrap, checkLags, Except.map, Except.ok.injEq] at h; exact ⟨rfl, h.symm⟩
        | scalar a => simp [Lags.wrap, checkLags, Except.map] at h
        | list a =>
          simp only [Lags.wrap, checkLags] at h
          split at h <;> cases h
        | array a =>
          simp only [Lags.wrap, checkLags] at h
          right
          split at h
          · cases h
          · rename_i hl
            match a, hl with
            | [k], _ =>
              split at h
              · rename_i hk
                simp only [Except.map, Except.ok.injEq] at h
                exact ⟨k, by simpa using hk, rfl, h.symm⟩
              · cases h
            | [], hl => simp at hl
            | _ :: _ :: _, hl => simp at hl
      · rintro ⟨_, t', ht, h⟩
        cases ht
        rcases h with ⟨rfl, rfl⟩ | ⟨k, hk, rfl, rfl⟩
        · exact ⟨rfl, hlen _⟩
        · refine ⟨?_, hlen _⟩
          simp [Lags.wrap, checkLags, Except.map, hk]
    | _ :: _ :: _ => simp

/-- C149 (defect, silent): a name already used leaves the formatter as it was, without an exception, whatever else is wrong with the call. -/
theorem C149_duplicate (old : List Normalizer) (ts : List Str) (l : Lags) (n : Normalizer) (hn : n ∈ old) : addNormalizer old ts l n.name = .ok old := by
  unfold addNormalizer
  rw [if_pos (List.any_eq_true.2 ⟨n, hn, by simp⟩)]

/-- C149 (defect, lists): a lag given as a number or as a list of one number is a TypeError, be it positive or not. -/
theorem C149_list_lags (old : List Normalizer) (t name : Str) (hn : ∀ n ∈ old, n.name ≠ name) (k : ℤ) :
    addNormalizer old [t] (.scalar k) name = .error .typeError ∧ addNormalizer old [t] (.list [k]) name = .error .typeError := by
  have : ¬ old.any (fun n => n.name = name) = true := by
    intro h
    obtain ⟨n, hn', he⟩ := List.any_eq_true.1 h
    exact hn n hn' (by simpa using he)
  unfold addNormalizer
  rw [if_neg this, if_neg this]
  exact ⟨rfl, rfl⟩

/-- C149 (refusals): several targets, several lags and arrays with a lag that is not positive are AssertionErrors. -/
theorem C149_refusals (old : List Normalizer) (ts : List Str) (l : Lags) (name : Str) (hn : ∀ n ∈ old, n.name ≠ name)
    (h : ts.length ≠ 1 ∨ (∃ a, (l = .list a ∨ l = .array a) ∧ a.length ≠ 1) ∨ ∃ k, k ≤ 0 ∧ l = .array [k]) : addNormalizer old ts l name = .error .assertionError := by
  have hno : ¬ old.any (fun n => n.name = name) = true := by
    intro h
    obtain ⟨n, hn', he⟩ := List.any_eq_true.1 h
    exact hn n hn' (by simpa using he)
  unfold addNormalizer
  rw [if_neg hno]
  match ts, h with
  | [], _ => rfl
  | _ :: _ :: _, _ => rfl
  | [t], h =>
    rcases h with h | ⟨a, ha | ha, hl⟩ | ⟨k, hk, rfl⟩
    · simp at h
    · subst ha; simp [Lags.wrap, checkLags, hl, Except.map]
    · subst ha; simp [Lags.wrap, checkLags, hl, Except.map]
    · simp [Lags.wrap, checkLags, not_lt.2 hk, Except.map]

/-! ### C150: time limits -/

theorem min?_isLeast (l : List ℤ) (a : ℤ) : l.min? = some a ↔ IsLeast {z | z ∈ l} a := by
  rw [List.min?_eq_some_iff]
  exact Iff.rfl

theorem max?_isGreatest (l : List ℤ) (a : ℤ) : l.max? = some a ↔ IsGreatest {z | z ∈ l} a := by
  rw [List.max?_eq_some_iff]
  exact Iff.rfl

theorem mem_starts (n : Str) (ws : List Win) (z : ℤ) : z ∈ (ws.filter (fun w => w.name = n)).map Win.start ↔ ∃ w ∈ ws, w.name = n ∧ w.start = z := by
  simp [List.mem_map, List.mem_filter, and_assoc]

theorem mem_stops (n : Str) (ws : List Win) (z : ℤ) : z ∈ (ws.filter (fun w => w.name = n)).map Win.stop ↔ ∃ w ∈ ws, w.name = n ∧ w.stop = z := by
  simp [List.mem_map, List.mem_filter, and_assoc]

theorem timeLims_some (ws : List Win) (n : Str) (a b : ℤ) : timeLims ws n = some (a, b) ↔ minStart n ws = some a ∧ maxStop n ws = some b := by
  unfold timeLims
  cases minStart n ws <;> cases maxStop n ws <;> simp

/-- C150 (per name): the limits of a variable are the first start and the last end over the windows of all its features. -/
theorem C150_limits (ws : List Win) (n : Str) (a b : ℤ) :
    timeLims ws n = some (a, b) ↔ IsLeast {z | ∃ w ∈ ws, w.name = n ∧ w.start = z} a ∧ IsGreatest {z | ∃ w ∈ ws, w.name = n ∧ w.stop = z} b := by
  rw [timeLims_some]
  unfold minStart maxStop
  rw [min?_isLeast, max?_isGreatest]
  simp only [mem_starts, mem_stops]

/-- C150 (listed): a variable has limits iff it has a feature. -/
theorem C150_listed (ws : List Win) (n : Str) : (timeLims ws n).isSome ↔ ∃ w ∈ ws, w.name = n := by
  have h1 : minStart n ws = none ↔ ¬ ∃ w ∈ ws, w.name = n := by
    unfold minStart
    rw [List.min?_eq_none_iff, List.map_eq_nil_iff, List.filter_eq_nil_iff]
    simp
  have h2 : maxStop n ws = none ↔ ¬ ∃ w ∈ ws, w.name = n := by
    unfold maxStop
    rw [List.max?_eq_none_iff, List.map_eq_nil_iff, List.filter_eq_nil_iff]
    simp
  by_cases h : ∃ w ∈ ws, w.name = n
  · refine iff_of_true ?_ h
    unfold timeLims
    cases hm : minStart n ws with
    | none => exact absurd h (h1.1 hm)
    | some a =>
      cases hM : maxStop n ws with
      | none => exact absurd h (h2.1 hM)
      | some b => rfl
  · refine iff_of_false ?_ h
    unfold timeLims
    rw [h1.2 h]
    simp

/-- C150 (extremes): the extremes are the first start and the last end over all windows. -/
theorem C150_extremes (ws : List Win) (a b : ℤ) :
    extremes ws = some (a, b) ↔ IsLeast {z | ∃ w ∈ ws, w.start = z} a ∧ IsGreatest {z | ∃ w ∈ ws, w.stop = z} b := by
  have hs : ∀ a, ((ws.map Win.name).filterMap (fun n => minStart n ws)).min? = some a ↔ IsLeast {z | ∃ w ∈ ws, w.start = z} a := by
    intro a
    rw [min?_isLeast]
    have hmem : ∀ z, z ∈ (ws.map Win.name).filterMap (fun n => minStart n ws) ↔ ∃ v ∈ ws, IsLeast {z | ∃ w ∈ ws, w.name = v.name ∧ w.start = z} z := by
      intro z
      rw [List.mem_filterMap]
      constructor
      · rintro ⟨n, hn, h⟩
        obtain ⟨v, hv, rfl⟩ := List.mem_map.1 hn
        refine ⟨v, hv, ?_⟩
        unfold minStart at h
        rw [min?_isLeast] at h
        simpa only [mem_starts] using h
      · rintro ⟨v, hv, h⟩
        refine ⟨v.name, List.mem_map.2 ⟨v, hv, rfl⟩, ?_⟩
        unfold minStart
        rw [min?_isLeast]
        simpa only [mem_starts] using h
    constructor
    · rintro ⟨h1, h2⟩
      obtain ⟨v, _, ⟨w, hw, _, hz⟩, _⟩ := (hmem a).1 h1
      refine ⟨⟨w, hw, hz⟩, ?_⟩
      rintro z ⟨u, hu, rfl⟩
      obtain ⟨p, hp⟩ := Option.isSome_iff_exists.1 ((C150_listed ws u.name).2 ⟨u, hu, rfl⟩)
      have hl := ((C150_limits ws u.name p.1 p.2).1 hp).1
      exact le_trans (h2 ((hmem p.1).2 ⟨u, hu, hl⟩)) (hl.2 ⟨u, hu, rfl, rfl⟩)
    · rintro ⟨⟨w, hw, hz⟩, h2⟩
      refine ⟨(hmem a).2 ⟨w, hw, ⟨w, hw, rfl, hz⟩, ?_⟩, ?_⟩
      · rintro z ⟨u, hu, _, he⟩
        exact h2 ⟨u, hu, he⟩
      · intro z hzm
        obtain ⟨v, _, ⟨u, hu, _, he⟩, _⟩ := (hmem z).1 hzm
        exact h2 ⟨u, hu, he⟩
  have ht : ∀ b, ((ws.map Win.name).filterMap (fun n => maxStop n ws)).max? = some b ↔ IsGreatest {z | ∃ w ∈ ws, w.stop = z} b := by
    intro b
    rw [max?_isGreatest]
    have hmem : ∀ z, z ∈ (ws.map Win.name).filterMap (fun n => maxStop n ws) ↔ ∃ v ∈ ws, IsGreatest {z | ∃ w ∈ ws, w.name = v.name ∧ w.stop = z} z := by
      intro z
      rw [List.mem_filterMap]
      constructor
      · rintro ⟨n, hn, h⟩
        obtain ⟨v, hv, rfl⟩ := List.mem_map.1 hn
        refine ⟨v, hv, ?_⟩
        unfold maxStop at h
        rw [max?_isGreatest] at h
        simpa only [mem_stops] using h
      · rintro ⟨v, hv, h⟩
        refine ⟨v.name, List.mem_map.2 ⟨v, hv, rfl⟩, ?_⟩
        unfold maxStop
        rw [max?_isGreatest]
        simpa only [mem_stops] using h
    constructor
    · rintro ⟨h1, h2⟩
      obtain ⟨v, _, ⟨w, hw, _, hz⟩, _⟩ := (hmem b).1 h1
      refine ⟨⟨w, hw, hz⟩, ?_⟩
      rintro z ⟨u, hu, rfl⟩
      obtain ⟨p, hp⟩ := Option.isSome_iff_exists.1 ((C150_listed ws u.name).2 ⟨u, hu, rfl⟩)
      have hl := ((C150_limits ws u.name p.1 p.2).1 hp).2
      exact le_trans (hl.2 ⟨u, hu, rfl, rfl⟩) (h2 ((hmem p.2).2 ⟨u, hu, hl⟩))
    · rintro ⟨⟨w, hw, hz⟩, h2⟩
      refine ⟨(hmem b).2 ⟨w, hw, ⟨w, hw, rfl, hz⟩, ?_⟩, ?_⟩
      · rintro z ⟨u, hu, _, he⟩
        exact h2 ⟨u, hu, he⟩
      · intro z hzm
        obtain ⟨v, _, ⟨u, hu, _, he⟩, _⟩ := (hmem z).1 hzm
        exact h2 ⟨u, hu, he⟩
  rw [← hs, ← ht]
  unfold extremes
  cases ((ws.map Win.name).filterMap (fun n => minStart n ws)).min? <;> cases ((ws.map Win.name).filterMap (fun n => maxStop n ws)).max? <;> simp

theorem mapM_meta_some (ts : List Tr) (f : Tr → List Win) (h : ∀ t ∈ ts, t.meta = some (f t)) : ts.mapM Tr.meta = some (ts.map f) := by
  induction ts with
  | nil => rfl
  | cons t ts ih =>
    rw [List.mapM_cons, h t List.mem_cons_self, ih (fun u hu => h u (List.mem_cons_of_mem _ hu))]
    rfl

theorem mapM_meta_none (ts : List Tr) (t : Tr) (ht : t ∈ ts) (h : t.meta = none) : ts.mapM Tr.meta = none := by
  induction ts with
  | nil => cases ht
  | cons u ts ih =>
    rw [List.mapM_cons]
    rcases List.mem_cons.1 ht with rfl | ht
    · rw [h]; rfl
    · rw [ih ht]
      cases u.meta <;> rfl

/-- C150 (unused formatter): before any data is seen the limits are those of the simulated features (with `dt`), and an AssertionError without `dt`. -/
theorem C150_unused (trs tts : List Tr) (inc : Bool) (t : Tr) (ht : t ∈ trs) (hm : t.meta = none) :
    timeTables true trs tts inc = .ok ((if inc then trs ++ tts else trs).flatMap Tr.sim) ∧ timeTables false trs tts inc = .error .assertionError := by
  have hne : trs ≠ [] := fun e => by rw [e] at ht; cases ht
  have hany : trs.any (fun t => t.meta.isNone) = true := List.any_eq_true.2 ⟨t, ht, by rw [hm]; rfl⟩
  have htab : ∀ l : List Tr, l ≠ [] → tables (l.map (fun t => { t with «meta» := some t.sim })) = .ok (l.flatMap Tr.sim) := by
    intro l hl
    unfold tables
    rw [if_neg (by simpa using hl), mapM_meta_some _ Tr.sim (by
      intro u hu
      obtain ⟨v, _, rfl⟩ := List.mem_map.1 hu
      rfl)]
    simp only [List.map_map, List.flatMap_def]
    rfl
  constructor
  · unfold timeTables simulate
    rw [if_pos hany]
    simp only [true_or, if_true]
    cases inc with
    | true => simp only [if_true, ← List.map_append]; exact htab _ (by simp [hne])
    | false => exact htab _ hne
  · unfold timeTables simulate
    rw [if_pos hany]
    simp [hne]

/-- C150 (used formatter): with the metadata of the transformers there, the limits are those of their features. -/
theorem C150_used (hasDt : Bool) (trs tts : List Tr) (inc : Bool) (f : Tr → List Win) (hne : trs ≠ []) (h : ∀ t ∈ trs, t.meta = some (f t))
    (h' : inc = true → ∀ t ∈ tts, t.meta = some (f t)) : timeTables hasDt trs tts inc = .ok ((if inc then trs ++ tts else trs).flatMap f) := by
  have hany : ¬ trs.any (fun t => t.meta.isNone) = true := by
    intro e
    obtain ⟨t, ht, he⟩ := List.any_eq_true.1 e
    rw [h t ht] at he
    cases he
  unfold timeTables
  rw [if_neg hany]
  unfold tables
  cases inc with
  | false =>
    simp only [Bool.false_eq_true, if_false]
    rw [if_neg hne, mapM_meta_some _ f h, List.flatMap_def]
  | true =>
    simp only [if_true]
    rw [if_neg (by simp [hne]), mapM_meta_some _ f (fun t ht => (List.mem_append.1 ht).elim (h t) (h' rfl t)), List.flatMap_def]

/-- C150 (defect): only the feature transformers are looked at to decide whether to simulate: with these used and a target transformer unused (added afterwards),
asking for the limits with the target is an AttributeError; so is asking with no feature transformer and an unused target. No transformer at all is a ValueError. -/
theorem C150_target_unused (hasDt : Bool) (trs tts : List Tr) (h : ∀ t ∈ trs, t.meta ≠ none) (t : Tr) (ht : t ∈ tts) (hm : t.meta = none) :
    timeTables hasDt trs tts true = .error .attributeError := by
  have hany : ¬ trs.any (fun t => t.meta.isNone) = true := by
    intro e
    obtain ⟨u, hu, he⟩ := List.any_eq_true.1 e
    exact h u hu (by simpa using he)
  unfold timeTables
  rw [if_neg hany]
  unfold tables
  have hne : trs ++ tts ≠ [] := fun e => by
    rw [(List.append_eq_nil_iff.1 e).2] at ht; cases ht
  simp only [if_true]
  rw [if_neg hne, mapM_meta_none _ t (List.mem_append_right _ ht) hm]

/-- C150 (no feature transformer): without features to look at, the limits are a ValueError (unless the target is included). -/
theorem C150_empty (hasDt : Bool) (tts : List Tr) : timeTables hasDt [] tts false = .error .valueError := rfl

/-! ### C151: frequency strings -/

/-- Spec: the new spelling of a legacy unit letter; any other character is itself. -/
def spell (c : Char) : List Char :=
  if c = 'H' then "h".toList else if c = 'T' then "min".toList else if c = 'S' then "s".toList
  else if c = 'L' then "ms".toList else if c = 'U' then "us".toList else if c = 'N' then "ns".toList else [c]

/-- The legacy letters. -/
def legacy : List Char := ['H', 'T', 'S', 'L', 'U', 'N']

theorem replaceChar_append (o : Char) (n a b : List Char) : replaceChar o n (a ++ b) = replaceChar o n a ++ replaceChar o n b := by
  unfold replaceChar
  rw [List.flatMap_append]

theorem foldl_replace_append (t : List (Char × List Char)) (a b : List Char) :
    t.foldl (fun s p => replaceChar p.1 p.2 s) (a ++ b) = t.foldl (fun s p => replaceChar p.1 p.2 s) a ++ t.foldl (fun s p => replaceChar p.1 p.2 s) b := by
  induction t generalizing a b with
  | nil => rfl
  | cons p t ih => rw [List.foldl_cons, List.foldl_cons, List.foldl_cons, replaceChar_append, ih]

theorem normFreq_char (c : Char) : normFreq [c] = spell c := by
  by_cases h1 : c = 'H'
  · subst h1; decide
  by_cases h2 : c = 'T'
  · subst h2; decide
  by_cases h3 : c = 'S'
  · subst h3; decide
  by_cases h4 : c = 'L'
  · subst h4; decide
  by_cases h5 : c = 'U'
  · subst h5; decide
  by_cases h6 : c = 'N'
  · subst h6; decide
  simp [normFreq, freqTable, replaceChar, spell, h1, h2, h3, h4, h5, h6]

/-- C151 (meaning): the six replacements made one after the other spell every character as the table says: no replacement undoes or extends another. -/
theorem C151_simultaneous (s : List Char) : normFreq s = s.flatMap spell := by
  induction s with
  | nil => decide
  | cons c s ih =>
    rw [List.flatMap_cons, ← ih, ← normFreq_char]
    exact foldl_replace_append _ [c] s

theorem spell_of_not_legacy (c : Char) (h : c ∉ legacy) : spell c = [c] := by
  simp only [legacy, List.mem_cons, List.not_mem_nil, or_false, not_or] at h
  obtain ⟨h1, h2, h3, h4, h5, h6⟩ := h
  simp [spell, h1, h2, h3, h4, h5, h6]

theorem spell_of_legacy (c : Char) (h : c ∈ legacy) : ∀ d ∈ spell c, d ∉ legacy := by
  simp only [legacy, List.mem_cons, List.not_mem_nil, or_false] at h
  rcases h with rfl | rfl | rfl | rfl | rfl | rfl <;> decide

/-- C151 (clean): no legacy letter is left, and a string is unchanged iff it had none. -/
theorem C151_clean (s : List Char) : (∀ c ∈ normFreq s, c ∉ legacy) ∧ (normFreq s = s ↔ ∀ c ∈ s, c ∉ legacy) := by
  have h1 : ∀ c ∈ normFreq s, c ∉ legacy := by
    intro c hc
    rw [C151_simultaneous] at hc
    obtain ⟨d, _, hd⟩ := List.mem_flatMap.1 hc
    by_cases h : d ∈ legacy
    · exact spell_of_legacy d h c hd
    · rw [spell_of_not_legacy d h, List.mem_singleton] at hd
      rw [hd]; exact h
  refine ⟨h1, fun h c hc => h1 c (h.symm ▸ hc), fun h => ?_⟩
  rw [C151_simultaneous]
  clear h1
  induction s with
  | nil => rfl
  | cons c s ih =>
    rw [List.flatMap_cons, ih (fun d hd => h d (List.mem_cons_of_mem _ hd)), spell_of_not_legacy c (h c List.mem_cons_self)]
    rfl

/-- C151 (idempotent): normalising twice is normalising once. -/
theorem C151_idempotent (s : List Char) : normFreq (normFreq s) = normFreq s := (C151_clean (normFreq s)).2.2 (C151_clean s).1

/-- C151 (units): a number followed by a legacy unit keeps the number. -/
theorem C151_units (ds : List Char) (hd : ∀ c ∈ ds, c.isDigit) (u : Char) : normFreq (ds ++ [u]) = ds ++ spell u := by
  rw [C151_simultaneous, List.flatMap_append, ← C151_simultaneous ds, (C151_clean ds).2.2 ?_]
  · simp
  · intro c hc hl
    have := hd c hc
    simp only [legacy, List.mem_cons, List.not_mem_nil, or_false] at hl
    rcases hl with rfl | rfl | rfl | rfl | rfl | rfl <;> exact absurd this (by decide)

/-- C151 (defect): letters are replaced inside longer units as well: two legacy letters in a row come out as two units run together (`1MS`, `1US`, `1NS`, `1MIN`). -/
theorem C151_inside_words (a b : List Char) (c : Char) : normFreq (a ++ c :: b) = normFreq a ++ spell c ++ normFreq b := by
  rw [C151_simultaneous, C151_simultaneous, C151_simultaneous, List.flatMap_append, List.flatMap_cons, List.append_assoc]

end PyF.FmtNorm
