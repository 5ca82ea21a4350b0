import Verif.FmtUnits.Cols

namespace PyF.FmtUnits
open PyF.Names PyF.Transform PyF.Fmt

/-- Moving mean over two hours with lags 0 and 1 as features, the value one hour ahead as target. -/
def exFm : Formatter :=
  { transformers := [{
      names := ["t".toList], functions := [⟨"mean".toList, meanOf⟩], agg := .steps 2, lags := some [0, 1], relative := false, dtArg := none }]
    targets := [{ names := ["t".toList], functions := [], agg := .unset, lags := some [-1], relative := false, dtArg := none }]
    augment := false }

/-- Temperatures of six hours with one value missing. -/
def exF : Frame :=
  { dt := 3600000000000, cols := [("t".toList, [some 10, some 20, some 30, some 10, none, some 0, some 4])] }

/-- The labels of the features and the columns of features and targets. -/
def shown (r : Except PyErr (Formatter × IFrame Nat × IFrame Nat)) : Option (List Nat × List Col) :=
  (r.map (fun s => (s.2.1.index, s.2.1.cols.map Prod.snd ++ s.2.2.cols.map Prod.snd))).toOption

example : shown (transformX exFm [0, 1, 2, 3, 4, 5, 6] exF true)
    = some ([2], [[some 25], [some 15], [some 10]]) := by decide +kernel

/-- Fahrenheit: the same row with its values converted. -/
example : shown (transformX exFm [0, 1, 2, 3, 4, 5, 6] (frameIn (fun v => 9 / 5 * v + 32) exF) true)
    = some ([2], [[some 77], [some 59], [some 50]]) := by decide +kernel

/-- The hypotheses of `C272_units` hold. -/
example : (∀ tr ∈ exFm.transformers, UnitfulTr (fun v => 9 / 5 * v + 32) tr) ∧
    ∀ tr ∈ exFm.targets, UnitfulTr (fun v => 9 / 5 * v + 32) tr := by
  constructor
  · intro tr htr f hf
    simp only [exFm] at htr; rw [List.mem_singleton] at htr
    subst htr
    simp only [List.mem_singleton] at hf
    subst hf
    exact (C272_functions (9 / 5) 32).1
  · intro tr htr f hf
    simp only [exFm] at htr; rw [List.mem_singleton] at htr
    subst htr
    simp at hf

/-- The sum of two temperatures does not follow. -/
example : ¬ Unitful (fun v => 9 / 5 * v + 32) sumOf := fun h => by
  have := (C272_functions (9 / 5) 32).2.2.1 h
  norm_num at this

/-- Nor does its moving version over two steps. -/
example : rolling 1 (2 * 1) 2 sumOf (colIn (fun v => 9 / 5 * v + 32) [some 0, some 5])
    ≠ colIn (fun v => 9 / 5 * v + 32) (rolling 1 (2 * 1) 2 sumOf [some 0, some 5]) := by decide +kernel

/-- One week later. -/
example : shown (transformX exFm ([0, 1, 2, 3, 4, 5, 6].map (fun t => t + 168)) exF true)
    = some ([170], [[some 25], [some 15], [some 10]]) := by decide +kernel

/-- A further column full of holes changes nothing. -/
example : shown (transformX exFm [0, 1, 2, 3, 4, 5, 6]
      ⟨exF.dt, exF.cols ++ [("w".toList, [none, none, none, some 1, none, none, none])]⟩ true)
    = some ([2], [[some 25], [some 15], [some 10]]) := by decide +kernel

/-- One with the name of a generated feature does: that feature is no longer returned. -/
example : ((transformX exFm [0, 1, 2, 3, 4, 5, 6]
      ⟨exF.dt, exF.cols ++ [("t_2h_mean_lag_000".toList, [none, none, none, some 1, none, none, none])]⟩ true).map
        (fun s => s.2.1.cols.map Prod.fst)).toOption
    = some ["t_2h_mean_lag_001".toList] := by decide +kernel

end PyF.FmtUnits
