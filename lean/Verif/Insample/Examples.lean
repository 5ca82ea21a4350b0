import Verif.Insample.Pinball

/-! Concrete instances. -/

namespace PyF.Insample
open PyF Quantile Metrics Spec

/-- Rows of one target, features and hours equal to the position. -/
def rowsOf (ys : List ℚ) (hour : ℕ → Fin 24) : List (TrainRow ℕ 1) := ys.zipIdx.map (fun p => ⟨p.2, hour p.2, fun _ => p.1⟩)

/-- The targets 0, 1, 2, … -/
def upTo (n : ℕ) : List ℚ := (List.range n).map (fun (i : ℕ) => (i : ℚ))

/-- The values of a scored forecaster at a label for the only target. -/
def at' {L : Type} (l : L) : Except PyErr (List (ℚ × (L → ℕ → ℚ))) → List (ℚ × ℚ)
  | .ok out => out.map (fun p => (p.1, p.2 l 0))
  | .error _ => []

-- C214: five rows at midnight, forecast 0: levels 0, 1/10, 1/2, 9/10, 1
example : at' () (scored (fun _ _ => 0) [0, 1 / 10, 1 / 2, 9 / 10, 1] (rowsOf [3, 1, 5, 2, 4] (fun _ => 0)) (List.replicate 5 ()) false) =
    [(0, 0), (1 / 10, 1 / 5), (1 / 2, 2 / 5), (9 / 10, 4 / 5), (1, 4 / 5)] := by decide +kernel
-- equal errors: never covered
example : at' () (scored (fun _ _ => 0) [0, 1 / 2, 1] (rowsOf [2, 2, 2] (fun _ => 0)) (List.replicate 3 ()) false) = [(0, 0), (1 / 2, 0), (1, 0)] := by decide +kernel
-- C215: one day
example : at' () (scored (fun (i : ℕ) _ => (i : ℚ) / 2) [0, 1 / 2, 1] (rowsOf (upTo 24) (fun i => Fin.ofNat 24 i)) (List.replicate 24 ()) true) =
    [(0, 0), (1 / 2, 0), (1, 0)] := by decide +kernel
example : ∀ h : Fin 24, (atHour (rowsOf (upTo 24) (fun i => Fin.ofNat 24 i)) h).length = 1 := by decide +kernel
-- three days: level 1 is reached by two of three rows
example : at' () (scored (fun _ _ => 0) [1 / 2, 1] (rowsOf (upTo 72) (fun i => Fin.ofNat 24 i)) (List.replicate 72 ()) true) =
    [(1 / 2, 1 / 3), (1, 2 / 3)] := by decide +kernel
example : ∀ h : Fin 24, ∃ r ∈ rowsOf (upTo 72) (fun i => Fin.ofNat 24 i), r.hour = h := by
  have key : ∀ h : Fin 24, ((rowsOf (upTo 72) (fun i => Fin.ofNat 24 i)).any (fun r => r.hour == h)) = true := by decide +kernel
  intro h
  obtain ⟨r, hr, h1⟩ := List.any_eq_true.1 (key h)
  exact ⟨r, hr, by simpa using h1⟩
example : at' 5 (scored (fun _ _ => 0) [1 / 2, 1] (rowsOf (upTo 72) (fun i => Fin.ofNat 24 i)) ((List.range 72).map (fun i => Fin.ofNat 24 i)) true) =
    [(1 / 2, 1 / 3), (1, 2 / 3)] := by decide +kernel

/-- The scores of a forecaster at a label for the only target. -/
def scoreAt {L : Type} (l : L) : Except PyErr (List (ℚ × Grouped L × Grouped L)) → List (ℚ × ℚ)
  | .ok out => out.map (fun p => (p.1, p.2.1.at l 0))
  | .error _ => []

-- C262: errors 0 and 1: the shift 1/4 served for the level 1/4 scores 3/16, the shift 0 would score 1/8; not more than 3/8 better
example : scoreAt () (pinballScored (fun _ _ => 0) [1 / 4, 1 / 2] (rowsOf [1, 0] (fun _ => 0)) (List.replicate 2 ())) = [(1 / 4, 3 / 16), (1 / 2, 1 / 4)] ∧
    meanLoss (1 / 4) [1, 0] (1 / 4) = 3 / 16 ∧ meanLoss (1 / 4) [1, 0] 0 = 1 / 8 := by decide +kernel
example : ∃ v, NearlyBest (1 / 4) [5, 1, 9, 2] v ∧ v = 7 / 4 :=
  ⟨_, quantileVal_nearlyBest [5, 1, 9, 2] (by simp) (1 / 4) (by norm_num) (by norm_num), by decide +kernel⟩
-- by hour, three days
example : scoreAt 5 (pinballScored (fun _ _ => 0) [1 / 2] (rowsOf (upTo 72) (fun i => Fin.ofNat 24 i)) ((List.range 72).map (fun i => Fin.ofNat 24 i))) =
    [(1 / 2, 8)] := by decide +kernel

end PyF.Insample
