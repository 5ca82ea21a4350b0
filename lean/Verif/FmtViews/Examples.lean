import Verif.FmtViews.Props

namespace PyF.FmtViews
open PyF PyF.Names PyF.Transform PyF.Prune

/-- Two lags of one variable and one target one step ahead, hourly. -/
def exFeats : List (List Meta) :=
  [[⟨"p_lag_000".toList, some 0, "none".toList, 0, 3600000000000, "p".toList⟩,
    ⟨"p_lag_001".toList, some 1, "none".toList, -3600000000000, 0, "p".toList⟩]]

def exTargets : List (List Meta) := [[⟨"p_lag_-001".toList, some (-1), "none".toList, 3600000000000, 7200000000000, "p".toList⟩]]

def exDf : List (Str × Nat) := [("p_lag_000".toList, 0), ("p_lag_001".toList, 1), ("t_lag_000".toList, 2), ("hour".toList, 3)]

/-- One variable: both features are drawn. -/
example : (plotDataset exDf exTargets exFeats (some []) .upTo 0 0).toOption
    = some [[⟨"p".toList, 0, 3600000000000⟩, ⟨"p".toList, -3600000000000, 0⟩]] := by decide +kernel

/-- With a second variable the plot raises, although pruning works. -/
def exFeats2 : List (List Meta) := exFeats ++ [[⟨"t_lag_000".toList, some 0, "none".toList, 0, 3600000000000, "t".toList⟩]]

example : (prune exDf exTargets exFeats2 0 [] .upTo 0 0).toOption = some [("p_lag_000".toList, 0), ("p_lag_001".toList, 1), ("t_lag_000".toList, 2)] ∧
    (plotDataset exDf exTargets exFeats2 (some []) .upTo 0 0).toOption = none := by decide +kernel

example : IsVar exFeats2.flatten "p".toList ∧ IsVar exFeats2.flatten "t".toList ∧
    ∀ m ∈ exFeats2.flatten, ∀ m' ∈ exFeats2.flatten, m.col = m'.col → m.var = m'.var := by
  refine ⟨⟨_, List.mem_cons_self, rfl⟩, ⟨_, List.mem_cons_of_mem _ (List.mem_cons_of_mem _ List.mem_cons_self), rfl⟩, ?_⟩
  decide +kernel

/-- With one variable but a calendar feature it raises as well, and so it does with the default argument. -/
example : (plotDataset exDf exTargets exFeats (some ["hour".toList]) .upTo 0 0).toOption = none ∧
    (plotDataset exDf exTargets exFeats none .upTo 0 0).toOption = none := by decide +kernel

example : (rename (fun m => m.var) [some exFeats.flatten] [some exTargets.flatten] ["p_lag_000".toList] 1) = .error .keyError ∧
    (rename (fun m => m.var) [none] [some exTargets.flatten] ["p_lag_000".toList] 1) = .error .valueError := ⟨rfl, rfl⟩

end PyF.FmtViews
