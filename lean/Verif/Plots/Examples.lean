import Verif.Plots.Props

namespace PyF.Plots
open PyF

-- C230: values of both signs; quantiles that are all negative are cut off at the top
example : ∃ lo hi, limits [-3, 0, 5 / 2] = .ok (lo, hi) ∧ ∀ v ∈ [-3, 0, (5 / 2 : ℚ)], lo ≤ v ∧ v ≤ hi := C230_limits _ (by decide)
example : ∃ lo hi, quantLimits [[-3, -2], [-4, -1]] 50 1 = .ok (lo, hi) ∧ ¬ ∀ i < 2, ∀ r : List ℚ, [[-3, -2], [-4, (-1 : ℚ)]][i]? = some r → ∀ v ∈ r, v ≤ hi := by
  obtain ⟨lo, hi, h1, _, h3⟩ := C230_quantile_limits [[-3, -2], [-4, (-1 : ℚ)]] 50 1 ⟨0, by decide, _, rfl, by decide⟩
  refine ⟨lo, hi, h1, ?_⟩
  rw [show (2 : Nat) = nMax [[-3, -2], [-4, (-1 : ℚ)]].length 50 1 from rfl, h3]
  rintro ⟨i, hi, r, hr, v, hv, h0⟩
  have : i = 0 ∨ i = 1 := by
    have : i < 2 := hi
    omega
  rcases this with rfl | rfl <;> cases hr <;> revert h0 <;> revert v <;> decide +kernel

-- C231: ten rows, every third: nine frames are planned, the fourth is the last one possible
example : tsRows 10 150 3 = .error .indexError := ((C231_series_frames 10 150 3 (by decide) (by decide)).1).2 (by decide)
example : ∃ l, tsRows 10 150 1 = .ok l ∧ l = List.range 9 ∧ 9 ∉ l := (C231_series_frames 10 150 1 (by decide) (by decide)).2.2
example : quantRows 10 50 3 = .ok [0, 3, 6] := (C231_quantile_frames 10 50 3 (by decide)).1

-- C232
example : summaryTicks [0, 1, 2] 3 = .error .valueError := (C232_ticks [0, 1, 2]).1 (by decide)
example : ∃ r, summaryTicks (List.range 13) 13 = .ok r ∧ r.length ≠ 7 := by
  obtain ⟨r, h1, _, _, h4, _⟩ := (C232_ticks (List.range 13)).2 (by decide)
  exact ⟨r, h1, fun h => absurd (h4.1 h) (by decide)⟩
example : ∃ v, unify "mean" (2, 4) = some v ∧ v ≠ 3 := by
  obtain ⟨v, h1, _, h3⟩ := (C232_mean_label 2 4).2
  refine ⟨v, h1, fun h => ?_⟩
  have := h3.1 (by rw [h]; norm_num)
  norm_num at this

-- C233: of six rows on the diagonal the first and the last are left out
def exData : List Row := [⟨10, 1, 1⟩, ⟨20, 2, 2⟩, ⟨30, 3, 3⟩, ⟨40, 4, 4⟩, ⟨50, 5, 5⟩, ⟨60, 6, 6⟩]
example : cell exData [1 / 5, 4 / 5] 0 0 = some 40 := by
  refine ((C233_cells exData (by decide) [1 / 5, 4 / 5] (by decide +kernel) (by decide +kernel) 0 0 2 5 2 5 (by decide +kernel) (by decide +kernel) (by decide +kernel) (by decide +kernel)).2 ?_).trans ?_
  · intro h
    have : (exData.filter (fun (r : Row) => decide (2 < r.x ∧ r.x ≤ 5 ∧ 2 < r.y ∧ r.y ≤ 5))).length = 0 := by rw [h]; rfl
    revert this
    decide +kernel
  · decide +kernel
example : ∀ i j, (⟨10, 1, 1⟩ : Row) ∉ cellRows exData defaultQs i j := C233_least_left_out exData ⟨10, 1, 1⟩ (by simp [exData]) (Or.inl (by simp [exData]))
example : ∃ i j, (⟨30, 3, 3⟩ : Row) ∈ cellRows exData [1 / 5, 4 / 5] i j :=
  ((C233_counted exData [1 / 5, 4 / 5] (1 / 5) (4 / 5) rfl rfl (by decide +kernel) (by decide +kernel) ⟨30, 3, 3⟩ (by simp [exData])).1).2 (by decide +kernel)

end PyF.Plots
