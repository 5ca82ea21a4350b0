import Verif.FoldPic.Runs

/-! Examples for C328. -/

namespace PyF.FoldPic
open PyF

/-- Six training rows, two skipped, three test rows, two skipped, six training rows. -/
def exTr : List Bool := List.replicate 6 true ++ List.replicate 7 false ++ List.replicate 6 true
def exTe : List Bool := List.replicate 8 false ++ List.replicate 3 true ++ List.replicate 8 false

example : (picture exTr exTe).map (fun r => r.toOption.map (fun l => String.join l)) = some (some "---x||x---") := by decide +kernel

/-- C328_skipped applies. -/
example : ∃ (k : Nat) (pic : List String), picture exTr exTe = some (.ok pic) ∧ 1 ≤ k ∧ pic.length = (19 + (k - 1)) / k := by
  obtain ⟨k, pic, h1, h2, -, -, h3, -⟩ := C328_skipped exTr exTe (by decide) ⟨true, by decide, rfl⟩ (by decide)
  exact ⟨k, pic, h1, h2, h3⟩

/-- C328_no_skipped: fifty training and fifty test rows are drawn, forty and forty are refused. -/
example : (∃ pic, picture (List.replicate 50 true ++ List.replicate 50 false) (List.replicate 50 false ++ List.replicate 50 true) = some (.ok pic)) ∧
    picture (List.replicate 40 true ++ List.replicate 40 false) (List.replicate 40 false ++ List.replicate 40 true) = some (.error .valueError) := by
  constructor
  · obtain ⟨pic, h, -⟩ := (C328_no_skipped (List.replicate 50 true ++ List.replicate 50 false) (List.replicate 50 false ++ List.replicate 50 true) (by decide) (by decide)).2 (by decide)
    exact ⟨pic, h⟩
  · exact (C328_no_skipped _ _ (by decide) (by decide)).1.1 (by decide)

/-- The two skipped rows after the first six are a run. -/
example : Run (skippedAt exTr exTe) exTr.length 5 2 := by
  refine ⟨by decide, by decide, by decide, by decide, ?_⟩
  intro j h1 h2
  have : j = 1 := by omega
  subst this
  decide

example : 2 ∈ diffs (changes (buffers exTr exTe)) := (C328_runs exTr exTe (by decide)).2 2 |>.2 ⟨5, by
  refine ⟨by decide, by decide, by decide, by decide, ?_⟩
  intro j h1 h2
  have : j = 1 := by omega
  subst this
  decide⟩

end PyF.FoldPic
