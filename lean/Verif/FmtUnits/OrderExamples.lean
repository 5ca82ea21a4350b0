import Verif.FmtUnits.Order
import Verif.FmtUnits.Examples

namespace PyF.FmtUnits
open PyF.Names PyF.Transform PyF.Fmt

/-- Moving mean over two hours. -/
def trMean : Transformer := { names := ["t".toList], functions := [⟨"mean".toList, meanOf⟩], agg := .steps 2, lags := some [0], relative := false, dtArg := none }

/-- Value one hour ago. -/
def trLag : Transformer := { names := ["t".toList], functions := [], agg := .unset, lags := some [1], relative := false, dtArg := none }

/-- The feature generated by `trMean`, one hour ago. -/
def trChain : Transformer := { names := ["t_2h_mean_lag_000".toList], functions := [], agg := .unset, lags := some [1], relative := false, dtArg := none }

/-- A formatter with the given transformations. -/
def fmOf (trs : List Transformer) : Formatter := { exFm with transformers := trs }

/-- Names and values of the returned features. -/
def feats (trs : List Transformer) : Option (List Nat × List (Str × Col)) :=
  ((transformX (fmOf trs) [0, 1, 2, 3, 4, 5, 6] exF true).map (fun s => (s.2.1.index, s.2.1.cols))).toOption

/-- C320: both orders return the same rows, with the columns exchanged. -/
example : feats [trMean, trLag] = some ([1, 2], [("t_2h_mean_lag_000".toList, [some 15, some 25]), ("t_lag_001".toList, [some 10, some 20])]) := by decide +kernel

example : feats [trLag, trMean] = some ([1, 2], [("t_lag_001".toList, [some 10, some 20]), ("t_2h_mean_lag_000".toList, [some 15, some 25])]) := by decide +kernel

/-- C320: its hypotheses hold for these. -/
example : OnlyInputs (fmOf [trMean, trLag]).transformers exF ∧ (fmOf [trMean, trLag]).transformers.Perm (fmOf [trLag, trMean]).transformers := by
  refine ⟨?_, List.Perm.swap _ _ _⟩
  intro tr htr
  simp only [fmOf, List.mem_cons, List.not_mem_nil, or_false] at htr
  rcases htr with rfl | rfl <;> intro nm hnm <;> simp only [trMean, trLag, List.mem_singleton] at hnm <;> subst hnm <;> exact ⟨_, List.mem_singleton.2 rfl⟩

/-- C320: a transformation of a generated feature works after the one that generates it and not before. -/
example : (feats [trMean, trChain]).isSome = true ∧ feats [trChain, trMean] = none := by decide +kernel

example : transformX (fmOf [trChain, trMean]) [0, 1, 2, 3, 4, 5, 6] exF true = .error .assertionError :=
  C320_chained _ trChain [trMean] rfl _ _ _ _ (List.mem_singleton.2 rfl) (by intro c hc; simp [exF] at hc)

end PyF.FmtUnits
