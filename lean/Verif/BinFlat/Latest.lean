import Verif.BinFlat.Props

/-!
What is left of a frame with binned features of `nested=False` after the rows with missing values are dropped (formatter.py L254-259).
-/

namespace PyF.BinFlat
open PyF PyF.Names PyF.Transform PyF.Binned

/-- C326 (defect, forecasts): a row in which some column of a binned variable is there is followed by `largest - smallest border - 1` rows without gaps. So the
rows kept when missing values are dropped never include the last ones, and no forecast can start from the latest observation. -/
theorem C326_kept_rows (fs : List Fn) (b : List Nat) (relative : Bool) (lags : Option (List Int)) (c : Col) (cols : List (Label × Col)) (hb : Desc b)
    (h2 : 2 ≤ b.length) (hok : columns fs b relative lags c = .ok cols) (hl : lags ≠ some []) (hrun : fullRows c (binSteps b) ≠ [])
    (q : Label × Col) (hq : q ∈ cols) (t : Nat) (ht : (q.2[t]?).join ≠ none) :
    t + (b.headD 0 - b.getLastD 0) ≤ c.length ∧ ∀ j < b.headD 0 - b.getLastD 0, sample c ((t + j : Nat) : Int) ≠ none := by
  rw [C326_columns fs b relative lags c hb h2 hl hrun, Except.ok.injEq] at hok
  subst hok
  obtain ⟨n, _, rfl⟩ := List.mem_map.1 hq
  by_contra hc
  apply ht
  by_cases hlt : t < c.length
  · simp only [List.getElem?_map, List.getElem?_range hlt, Option.map_some, Option.join_some]
    exact C326_latest_missing b hb h2 _ _ _ c t (fun hf => hc hf)
  · rw [List.getElem?_eq_none (by simp; omega)]
    rfl

/-- The row of the hypotheses: an unbroken column of six values, bins 3 → 2 → 0. -/
example : ∃ cols, columns [⟨"sum".toList, fun l => some l.sum⟩] [3, 2, 0] false none ((List.range 6).map (fun (i : ℕ) => some (i : ℚ))) = .ok cols ∧
    (∃ q ∈ cols, (q.2[3]?).join ≠ none) ∧ ∀ q ∈ cols, (q.2[4]?).join = none ∧ (q.2[5]?).join = none := by
  refine ⟨_, C326_columns _ _ _ _ _ (by unfold Desc; decide +kernel) (by decide +kernel) (by decide +kernel) (by decide +kernel), ?_, ?_⟩ <;> decide +kernel

end PyF.BinFlat
