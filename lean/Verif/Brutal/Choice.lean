import Verif.Brutal.Props

/-!
C333: the feature a stage of `BrutalRegressor` uses.
-/

namespace PyF.Brutal

open PyF PyF.Tune PyF.Boost

/-- The mean squared error of a stage of feature `f` in its bootstrap rows. -/
def stageError (cuts : List ℚ → List ℚ) (rows : List Row) (err : List (Option ℚ)) (idx : List ℕ) (f : ℕ) : Option ℚ :=
  omean (idx.map (fun i => (osub (err.getD i none) (stage cuts rows err idx f (rows.getD i (fun _ => 0)))).map (fun d => d * d)))

theorem score_eq (cuts : List ℚ → List ℚ) (rows : List Row) (err : List (Option ℚ)) (idx : List ℕ) (f : ℕ) :
    score (cuts ((bootOf rows err idx f).map Prod.fst)) (bootOf rows err idx f) = stageError cuts rows err idx f := by
  unfold score stageError stage
  congr 1
  conv_lhs => rw [show bootOf rows err idx f = idx.map (fun i => ((rows.getD i (fun _ => 0)) f, err.getD i none)) from rfl]
  rw [List.map_map]
  rfl

theorem exists_min (s : List ℚ) (h : s ≠ []) : ∃ v ∈ s, ∀ w ∈ s, v ≤ w := by
  induction s with
  | nil => exact absurd rfl h
  | cons a s ih =>
    by_cases hs : s = []
    · exact ⟨a, List.mem_cons_self .., by intro w hw; rw [hs] at hw; simp at hw; exact hw.ge⟩
    · obtain ⟨v, hv, hm⟩ := ih hs
      by_cases hav : a ≤ v
      · refine ⟨a, List.mem_cons_self .., fun w hw => ?_⟩
        rcases List.mem_cons.1 hw with h | h
        · exact h.ge
        · exact hav.trans (hm w h)
      · refine ⟨v, List.mem_cons_of_mem _ hv, fun w hw => ?_⟩
        rcases List.mem_cons.1 hw with h | h
        · rw [h]; exact (not_le.1 hav).le
        · exact hm w h

/-- If the errors of all features are numbers, the chosen feature is the first one whose stage has the smallest squared error in the bootstrap rows. -/
theorem C333_choice (cuts : List ℚ → List ℚ) (nf : ℕ) (rows : List Row) (err : List (Option ℚ)) (idx : List ℕ) (hi : idx ≠ []) (hn : 0 < nf) (E : ℕ → ℚ)
    (hE : ∀ f < nf, stageError cuts rows err idx f = some (E f)) :
    ∃ f < nf, bestFeature cuts nf rows err idx = .ok f ∧ (∀ g < nf, E f ≤ E g) ∧ ∀ g < f, E f < E g := by
  have hs : (List.range nf).map (fun f => score (cuts ((bootOf rows err idx f).map Prod.fst)) (bootOf rows err idx f)) = (List.range nf).map (fun f => some (E f)) := by
    apply List.map_congr_left
    intro f hf
    rw [score_eq]
    exact hE f (List.mem_range.1 hf)
  obtain ⟨v, hv, hm⟩ := exists_min ((List.range nf).map E) (by
    intro h
    rw [List.map_eq_nil_iff, List.range_eq_nil] at h
    omega)
  obtain ⟨f0, hf0, rfl⟩ := List.mem_map.1 hv
  have hlt : ((List.range nf).map (fun f => some (E f))).findIdx (fun v => ((List.range nf).map (fun f => some (E f))).all (fun w => sle v w)) < nf := by
    have := List.findIdx_lt_length_of_exists (p := fun v => ((List.range nf).map (fun f => some (E f))).all (fun w => sle v w)) (xs := (List.range nf).map (fun f => some (E f)))
      ⟨some (E f0), List.mem_map.2 ⟨f0, hf0, rfl⟩, by
        rw [List.all_eq_true]
        intro w hw
        obtain ⟨g, hg, rfl⟩ := List.mem_map.1 hw
        simpa [sle] using hm (E g) (List.mem_map_of_mem hg)⟩
    rwa [List.length_map, List.length_range] at this
  refine ⟨_, hlt, ?_, ?_, ?_⟩
  · unfold bestFeature argmin
    rw [if_neg (by omega), if_neg hi, hs, if_neg (by
      intro h
      rw [List.map_eq_nil_iff, List.range_eq_nil] at h
      omega), if_neg (by simp)]
  · intro g hg
    have := List.findIdx_getElem (p := fun v => ((List.range nf).map (fun f => some (E f))).all (fun w => sle v w)) (xs := (List.range nf).map (fun f => some (E f)))
      (w := by rw [List.length_map, List.length_range]; exact hlt)
    simp only [List.getElem_map, List.getElem_range] at this
    rw [List.all_eq_true] at this
    simpa [sle] using this (some (E g)) (List.mem_map.2 ⟨g, List.mem_range.2 hg, rfl⟩)
  · intro g hg
    have hglt : g < nf := hg.trans hlt
    have h1 := List.not_of_lt_findIdx hg
    simp only [List.getElem_map, List.getElem_range] at h1
    rw [Bool.eq_false_iff, Ne, List.all_eq_true] at h1
    push Not at h1
    obtain ⟨w, hw, hwn⟩ := h1
    obtain ⟨g', hg', rfl⟩ := List.mem_map.1 hw
    have h2 := List.findIdx_getElem (p := fun v => ((List.range nf).map (fun f => some (E f))).all (fun w => sle v w)) (xs := (List.range nf).map (fun f => some (E f)))
      (w := by rw [List.length_map, List.length_range]; exact hlt)
    simp only [List.getElem_map, List.getElem_range] at h2
    rw [List.all_eq_true] at h2
    have h3 := h2 (some (E g')) (List.mem_map.2 ⟨g', hg', rfl⟩)
    have hwn' : ¬ E g ≤ E g' := fun h => hwn (decide_eq_true h)
    exact lt_of_le_of_lt (of_decide_eq_true h3) (not_le.1 hwn')

end PyF.Brutal
