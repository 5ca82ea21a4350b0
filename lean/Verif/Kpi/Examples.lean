import Verif.Kpi.Props

/-!
A hierarchy with one aggregate 5 of the series 1 and 2, whose sorted order (1, 2, 5) differs from that of the target matrix (5, 1, 2).
-/

namespace PyF.Kpi

open PyF Recon

def exH : Hier ℕ := [(5, [1, 2])]

example : order exH [1, 2, 5, 1, 2, 5] = [5, 1, 2] := by decide +kernel
example : quantileCols exH [1, 2, 5, 1, 2, 5] = [1, 2, 5] := by decide +kernel
example : (keys exH).Nodup := by decide +kernel
example : ¬ (order exH [1, 2, 5]).Pairwise (· ≤ ·) := by decide +kernel

/-- Perfect median forecasts of all series (the series `n` has the value `n`): the crps of the aggregate is reported as 2, not 0. -/
example : (match crpsTable exH [1, 2, 5] 2 1 [1 / 2] (fun n _ _ => n) (fun n _ => n) with
    | .ok tab => decide (tab = [(5, 2), (1, 1 / 2), (2, 3 / 2)])
    | .error _ => false) = true := by decide +kernel

example : ownCrps 2 [1 / 2] (fun _ _ => 5) (fun _ => 5) = 0 := by decide +kernel

/-- The reliability of the aggregate is 0, that of the others 1. -/
example : (match relTable exH [1, 2, 5] 2 1 [1 / 2] (fun n _ _ => n) (fun n _ => n) 0 with
    | .ok tab => decide (tab = [(5, 0), (1, 1), (2, 1)])
    | .error _ => false) = true := by decide +kernel

/-- More levels than in the array. -/
example : (match crpsTable exH [1, 2, 5] 2 1 [1 / 4, 3 / 4] (fun n _ _ => n) (fun n _ => n) with
    | .ok _ => false
    | .error e => decide (e = .indexError)) = true := by decide +kernel

/-- A hierarchy whose order is sorted: C188_own_scores_iff holds with the right side true. -/
example : (order [(0, [1, 2])] [1, 2, 0]).Pairwise (· ≤ ·) := by decide +kernel

/-- C189_point applies to columns in different orders. -/
example (v w : ℕ → ℕ → ℝ) : (rmse 3 ⟨[1, 2, 5], v⟩ ⟨[5, 1, 2], w⟩).lookup 5 = some (some (ownRmse 3 (v 5) (w 5))) :=
  C189_point 3 (by norm_num) ⟨[1, 2, 5], v⟩ ⟨[5, 1, 2], w⟩ (fun n => by simp; tauto) 5 (by simp)

/-- Levels: 0 for the aggregate, 1 for the two others, none for the series 7. -/
example : levelMean (K := ℚ) [(5, 0), (1, 1), (2, 1)] [(5, some 4), (1, some 1), (2, some 2), (7, some 100)] 1 = some (3 / 2) := by decide +kernel
example : levelMean (K := ℚ) [(5, 0), (1, 1), (2, 1)] [(5, some 4), (1, some 1), (2, some 2), (7, some 100)] 2 = none := by decide +kernel

/-- Frames of the default forecaster. -/
example : getQuantiles (L := ℕ) exH [1, 2, 5] (fun _ => .frame) (fun _ => 4) [0, 1] [10, 90] .all = .error .indexError :=
  (C190_frames exH (by decide) [1, 2, 5] 1 (by decide) (by decide +kernel) _ (fun _ => rfl) _ _ _ _).1 (by simp)

/-- Arrays of a network: the levels 10 and 90 come before the steps 0 and 1. -/
example : (match getQuantiles (L := ℕ) exH [1, 2, 5] (fun _ => .array 4 2 2) (fun _ => 4) [0, 1] [10, 90] .bottom with
    | .ok l => decide (l = [(1, 10, 0), (1, 10, 1), (1, 90, 0), (1, 90, 1), (2, 10, 0), (2, 10, 1), (2, 90, 0), (2, 90, 1)])
    | .error _ => false) = true := by decide +kernel

example : reconciledCols (L := ℕ) exH [1, 2, 5] [0, 1] [10] = [(1, 0, 10), (1, 1, 10), (2, 0, 10), (2, 1, 10), (5, 0, 10), (5, 1, 10)] := by decide +kernel

end PyF.Kpi
