import Verif.Prune.Props
import Mathlib.Data.List.Nodup

/-! C29 in terms of the columns of the frame returned by `prune_dataset_at_stepahead`. -/

namespace PyF.Prune
open PyF.Names PyF.Transform

variable {C : Type}

namespace Spec

/-- The returned frame has a column of this name. -/
def HasColumn (out : List (Str × C)) (c : Str) : Prop := ∃ v, (c, v) ∈ out

end Spec

open Spec

theorem hasColumn_iff (out : List (Str × C)) (c : Str) : HasColumn out c ↔ c ∈ out.map Prod.fst := by
  unfold HasColumn
  simp

/-- **C29.** Features with names of their own: a feature is a column of the result exactly if it is allowed. -/
theorem C29_column_iff (df : List (Str × C)) (ms : List Meta) (rest feats : List (List Meta)) (k : Nat)
    (mf : List Str) (meth : Method) (nLags secs : Int) (hp : PeriodPos meth) (out : List (Str × C))
    (h : prune df (ms :: rest) feats k mf meth nLags secs = .ok out) (hn : (feats.flatten.map Meta.col).Nodup)
    (m : Meta) (hm : m ∈ feats.flatten) (hmf : m.col ∉ mf) :
    ∃ tgt, ms[k]? = some tgt ∧ (HasColumn out m.col ↔ Allowed meth nLags secs tgt m) := by
  obtain ⟨tgt, kept, h1, h2, h3, h4, h5, -⟩ := C29_keeps_exactly_allowed df ms rest feats k mf meth nLags secs hp out h
  refine ⟨tgt, h1, ?_⟩
  rw [hasColumn_iff, h5, List.mem_append, or_iff_left hmf, List.mem_map]
  constructor
  · rintro ⟨m', hk, hc⟩
    have : m' = m := List.inj_on_of_nodup_map hn (h2.subset hk) hm hc
    exact this ▸ h3 m' hk
  · intro ha
    refine ⟨m, ?_, rfl⟩
    have := h4 [m] (List.singleton_sublist.2 hm) (by simpa using ha)
    exact List.singleton_sublist.1 this

/-- **C29.** With 'up_to' and no `keep_last_n_lags` every column returned is one of the `metadata_features` or belongs to a
feature that does not end after the target. -/
theorem C29_pruned_up_to (df : List (Str × C)) (ms : List Meta) (rest feats : List (List Meta)) (k : Nat)
    (mf : List Str) (nLags secs : Int) (hl : nLags ≤ 0) (out : List (Str × C))
    (h : prune df (ms :: rest) feats k mf .upTo nLags secs = .ok out) :
    ∃ tgt, ms[k]? = some tgt ∧ ∀ c, HasColumn out c → c ∈ mf ∨ ∃ m ∈ feats.flatten, m.col = c ∧ m.stop ≤ tgt.stop := by
  obtain ⟨tgt, kept, h1, h2, h3, -, h5, -⟩ := C29_keeps_exactly_allowed df ms rest feats k mf .upTo nLags secs trivial out h
  refine ⟨tgt, h1, ?_⟩
  intro c hc
  rw [hasColumn_iff, h5, List.mem_append, List.mem_map] at hc
  rcases hc with ⟨m, hk, rfl⟩ | hc
  · exact Or.inr ⟨m, h2.subset hk, rfl, C29_up_to_never_past_target nLags secs hl tgt m (h3 m hk)⟩
  · exact Or.inl hc

/-- **C29** (defect of 'periodic'). Features a multiple of the period after the target are columns of the result. -/
theorem C29_pruned_future (df : List (Str × C)) (ms : List Meta) (rest feats : List (List Meta)) (k : Nat)
    (mf : List Str) (p tol : Int) (hp : 0 < p) (htol : 0 ≤ tol) (nLags secs : Int) (out : List (Str × C))
    (h : prune df (ms :: rest) feats k mf (.periodic p tol) nLags secs = .ok out) (tgt m : Meta) (ht : ms[k]? = some tgt)
    (hm : m ∈ feats.flatten) (j : Int) (hj : m.start = tgt.start + j * p) : HasColumn out m.col := by
  obtain ⟨tgt', kept, h1, -, -, h4, h5, -⟩ := C29_keeps_exactly_allowed df ms rest feats k mf (.periodic p tol) nLags secs hp out h
  obtain rfl : tgt = tgt' := Option.some.inj (ht.symm.trans h1)
  have := h4 [m] (List.singleton_sublist.2 hm) (by simpa using C29_periodic_keeps_the_future p tol hp htol nLags secs tgt m j hj)
  rw [hasColumn_iff, h5]
  exact List.mem_append_left _ (List.mem_map.2 ⟨m, List.singleton_sublist.1 this, rfl⟩)

/-- **C29** (defect of 'periodic'). Without the other rules a feature starting and ending `ε` after a multiple of the period
before the target is not in the result for any `0 < ε < period - tol`. -/
theorem C29_pruned_late (df : List (Str × C)) (ms : List Meta) (rest feats : List (List Meta)) (k : Nat)
    (mf : List Str) (p tol ε : Int) (hp : 0 < p) (h0 : 0 < ε) (hε : ε < p - tol) (out : List (Str × C))
    (h : prune df (ms :: rest) feats k mf (.periodic p tol) 0 0 = .ok out) (hn : (feats.flatten.map Meta.col).Nodup)
    (tgt m : Meta) (ht : ms[k]? = some tgt) (hm : m ∈ feats.flatten) (hmf : m.col ∉ mf) (j : Int)
    (hs : m.start = tgt.start - j * p + ε) (he : m.stop = tgt.stop - j * p + ε) : ¬ HasColumn out m.col := by
  obtain ⟨tgt', h1, h2⟩ := C29_column_iff df ms rest feats k mf (.periodic p tol) 0 0 hp out h hn m hm hmf
  obtain rfl : tgt = tgt' := Option.some.inj (ht.symm.trans h1)
  rw [h2]
  exact C29_periodic_one_sided p tol ε h0 hε tgt m j hs he 0 (le_refl _)

/-- **C29** (defect of `keep_last_seconds`). Any positive number of seconds keeps the columns of all features of the past,
however old, with every method. -/
theorem C29_pruned_past (df : List (Str × C)) (ms : List Meta) (rest feats : List (List Meta)) (k : Nat)
    (mf : List Str) (meth : Method) (nLags secs : Int) (hp : PeriodPos meth) (hs : 0 < secs) (out : List (Str × C))
    (h : prune df (ms :: rest) feats k mf meth nLags secs = .ok out) (tgt m : Meta) (ht : ms[k]? = some tgt)
    (h0 : 0 ≤ tgt.stop) (hm : m ∈ feats.flatten) (hpast : m.stop ≤ 0) : HasColumn out m.col := by
  obtain ⟨tgt', kept, h1, -, -, h4, h5, -⟩ := C29_keeps_exactly_allowed df ms rest feats k mf meth nLags secs hp out h
  obtain rfl : tgt = tgt' := Option.some.inj (ht.symm.trans h1)
  have := h4 [m] (List.singleton_sublist.2 hm)
    (by simpa using C29_keep_last_seconds_keeps_all_past meth nLags secs hs tgt m hpast h0)
  rw [hasColumn_iff, h5]
  exact List.mem_append_left _ (List.mem_map.2 ⟨m, List.singleton_sublist.1 this, rfl⟩)

/-! ### Non-vacuity -/

/-- The frame of the examples. -/
def exFrame : List (Str × Nat) := [("x0".toList, 10), ("x1".toList, 11), ("x2".toList, 12), ("hour".toList, 13)]

/-- Two targets. -/
def exTargets : List Meta := [mk "t1" (-1) 1 2, mk "t2" (-2) 2 3]

/-- Three features, the last one after the targets. -/
def exFeats : List (List Meta) := [[mk "x0" 0 0 1, mk "x1" 1 (-100) (-99)], [mk "x2" (-3) 25 26]]

/-- 'up_to' drops the feature of the future. -/
example : ∃ out, prune exFrame [exTargets] exFeats 0 ["hour".toList] .upTo 0 0 = .ok out ∧
    ¬ HasColumn out "x2".toList ∧ HasColumn out "x1".toList := by
  refine ⟨_, rfl, ?_, ?_⟩
  · obtain ⟨tgt, h1, h2⟩ := C29_column_iff exFrame exTargets [] exFeats 0 ["hour".toList] .upTo 0 0 trivial _ rfl (by decide +kernel)
      (mk "x2" (-3) 25 26) (by simp [exFeats]) (by decide +kernel)
    obtain rfl := Option.some.inj (h1.symm.trans (rfl : exTargets[0]? = some (mk "t1" (-1) 1 2)))
    refine fun hh => absurd (h2.1 hh) ?_
    rintro (h | ⟨l, -, a, b⟩ | h)
    · exact absurd (show (26 : Int) ≤ 2 from h) (by decide)
    · omega
    · omega
  · rw [hasColumn_iff]
    decide +kernel

/-- 'periodic' with a period of 24 keeps it. -/
example : ∃ out, prune exFrame [exTargets] exFeats 0 [] (.periodic 24 1) 0 0 = .ok out ∧ HasColumn out "x2".toList := by
  refine ⟨_, rfl, ?_⟩
  exact C29_pruned_future exFrame exTargets [] exFeats 0 [] 24 1 (by decide) (by decide) 0 0 _ rfl (mk "t1" (-1) 1 2)
    (mk "x2" (-3) 25 26) rfl (by simp [exFeats]) 1 (by decide)

/-- 'periodic' with a period of 33 drops the feature that begins three units after the previous period of the second target. -/
example : ∃ out, prune exFrame [exTargets] exFeats 1 [] (.periodic 33 1) 0 0 = .ok out ∧ ¬ HasColumn out "x2".toList := by
  refine ⟨_, rfl, ?_⟩
  exact C29_pruned_late exFrame exTargets [] exFeats 1 [] 33 1 23 (by decide) (by decide) (by decide) _ rfl (by decide +kernel)
    (mk "t2" (-2) 2 3) (mk "x2" (-3) 25 26) rfl (by simp [exFeats]) (by simp) 0 (by decide) (by decide)

/-- Keeping the last second keeps a feature 99 units old. -/
example : ∃ out, prune exFrame [exTargets] exFeats 0 [] (.periodic 24 1) 0 1 = .ok out ∧ HasColumn out "x1".toList := by
  refine ⟨_, rfl, ?_⟩
  exact C29_pruned_past exFrame exTargets [] exFeats 0 [] (.periodic 24 1) 0 1 (show (0 : Int) < 24 by decide) (by decide) _ rfl (mk "t1" (-1) 1 2)
    (mk "x1" 1 (-100) (-99)) rfl (by decide) (by simp [exFeats]) (by decide)

/-- 'up_to' in general. -/
example : ∃ out, prune exFrame [exTargets] exFeats 0 ["hour".toList] .upTo 0 0 = .ok out ∧ HasColumn out "hour".toList ∧
    ∀ c, HasColumn out c → c ∈ ["hour".toList] ∨ ∃ m ∈ exFeats.flatten, m.col = c ∧ m.stop ≤ 2 := by
  refine ⟨_, rfl, by rw [hasColumn_iff]; decide +kernel, ?_⟩
  obtain ⟨tgt, h1, h2⟩ := C29_pruned_up_to exFrame exTargets [] exFeats 0 ["hour".toList] 0 0 (le_refl _) _ rfl
  obtain rfl := Option.some.inj (h1.symm.trans (rfl : exTargets[0]? = some (mk "t1" (-1) 1 2)))
  exact h2

end PyF.Prune
