import Verif.NnIo.Props
import Verif.NnIo.Props2

namespace PyF.NnIo

open PyF

/-- Spread: one plus the sum of squares; the network returns its input followed by the number of training vectors. -/
def exE : Env := ⟨fun l => 1 + (l.map (fun z => z * z)).sum, fun vs v => v ++ [(vs.length : ℚ)]⟩

theorem sum_sq_nonneg (l : List ℚ) : 0 ≤ (l.map (fun z => z * z)).sum := by
  induction l with
  | nil => simp
  | cons a l ih => simp only [List.map_cons, List.sum_cons]; nlinarith [mul_self_nonneg a]

theorem exE_dev : ∀ l, exE.dev l ≠ 0 := by
  intro l
  have h : exE.dev l = 1 + (l.map (fun z => z * z)).sum := rfl
  have := sum_sq_nonneg l
  rw [h]
  linarith

def exRow (a b h : ℚ) : String → ℚ := fun k => if k = "a" then a else if k = "b" then b else h

/-- Lags `a`, `b` are normalised, `hour` and `day` are not. -/
def exC : Cfg := ⟨some ["hour", "day"], false, none⟩
def exX : Frame := ⟨["a", "hour", "b"], [exRow 1 2 3, exRow 0 1 5]⟩

-- C183: the unnormalised column moved to the front is accepted, and the vector is another one
example : ∃ r, predict exC (fit exE exC fresh exX).1 ⟨["hour", "a", "b"], [exRow 1 2 3]⟩ = .ok r :=
  (C183_accepts exE exC fresh exX ⟨["hour", "a", "b"], [exRow 1 2 3]⟩ (by decide +kernel) (by simp)).2.1.2 (by decide +kernel)

example : (match predict exC (fit exE exC fresh exX).1 ⟨["hour", "a", "b"], [exRow 1 2 3]⟩, predict exC (fit exE exC fresh exX).1 ⟨["a", "hour", "b"], [exRow 1 2 3]⟩ with
    | .ok r, .ok r' => decide (r = [[3, 1/2, 1/3, 2]]) && decide (r' = [[1/2, 3, 1/3, 2]])
    | _, _ => false) = true := by decide +kernel

-- C183: normalised columns in another order are refused
example : ¬ ∃ r, predict exC (fit exE exC fresh exX).1 ⟨["b", "hour", "a"], [exRow 1 2 3]⟩ = .ok r := by
  rw [(C183_accepts exE exC fresh exX ⟨["b", "hour", "a"], [exRow 1 2 3]⟩ (by decide +kernel) (by simp)).2.1]
  decide +kernel

example : ¬ ∃ r, predict ⟨none, true, none⟩ (fit exE ⟨none, true, none⟩ fresh exX).1 ⟨["hour", "a", "b"], [exRow 1 2 3]⟩ = .ok r := by
  rw [C183_all_normalised exE ⟨none, true, none⟩ fresh exX _ rfl (by decide) (by simp)]
  decide

-- C183: nothing normalised: other names are accepted
example : ∃ r, predict ⟨some ["a", "b", "hour"], false, none⟩ (fit exE ⟨some ["a", "b", "hour"], false, none⟩ fresh exX).1 ⟨["x", "y", "z"], [exRow 1 2 3]⟩ = .ok r :=
  (C183_none_normalised exE ⟨some ["a", "b", "hour"], false, none⟩ exX ⟨["x", "y", "z"], [exRow 1 2 3]⟩ (by decide +kernel) (by simp)).2.1.2 rfl

example : ∃ r, vec exE exC exX.rows ["hour", "a", "b"] r ≠ vec exE exC exX.rows exX.cols r :=
  C183_misread exE exC exX ["hour", "a", "b"] exE_dev rfl (by decide)

-- C184: fit with normalised columns, then without
example : (fit exE ⟨some ["a", "b", "hour"], false, none⟩ (history exE fresh [(exC, exX)]) exX).2 = some .valueError :=
  (C184_refit exE [(exC, exX)] ⟨some ["a", "b", "hour"], false, none⟩ exX).2.1 (by decide +kernel) ⟨(exC, exX), by simp, by decide +kernel⟩

-- C185: half of the rows for validation; another validation row changes the training vectors
def exC2 : Cfg := ⟨some ["hour", "day"], false, some (1/2)⟩
def exX2 : Frame := ⟨["a", "hour", "b"], [exRow 1 2 3, exRow 7 1 5]⟩

example : trainInputs exE exC2 fresh exX ≠ trainInputs exE exC2 fresh exX2 := by
  have htr : (splitFrame exC2 exX2).1.rows = (splitFrame exC2 exX).1.rows := by
    have h : ∀ a b : String → ℚ, (Split.trainValSplit (some (1/2 : ℚ)) [a, b] [a, b]).1 = [a] := by
      intro a b
      have h1 : Split.truncQ (2 * (1/2 : ℚ)) = 1 := by decide +kernel
      have h2 : (([a, b] : List (String → ℚ)).length : ℚ) = 2 := by simp
      simp only [Split.trainValSplit, h2, h1]
      rfl
    simp only [splitFrame, exC2, exX2, exX, h]
  rw [Ne, C185_leak exE exC2 fresh fresh exX exX2 rfl rfl (by decide +kernel) exE_dev htr]
  intro h
  rcases h "a" (by decide +kernel) with h | h
  · revert h; decide +kernel
  · have := h (exRow 1 2 3) (by
      have h1 : Split.truncQ (2 * (1/2 : ℚ)) = 1 := by decide +kernel
      have h2 : (([exRow 1 2 3, exRow 0 1 5] : List (String → ℚ)).length : ℚ) = 2 := by simp
      simp only [splitFrame, exC2, exX, Split.trainValSplit, h2, h1]
      exact List.mem_cons_self)
    revert this; decide +kernel

-- C186
example : quantileBase true true false exC (fit exE exC fresh exX).1 (.frame exX) = .error .attributeError := C186_lstm exC _ exX true false (by simp)

-- C182: three layers of 100 units, four targets
example : Works ⟨.count 3, 8, 100, true, none, false⟩ 20 4 true := (C182_count _ 2 20 4 true rfl rfl).2.2 rfl
example : ¬ Works ⟨.count 3, 4, 100, true, none, false⟩ 20 4 true := by rw [(C182_count _ 2 20 4 true rfl rfl).2]; decide
example : Works ⟨.count 3, 1, 100, false, some 4, false⟩ 20 4 false := (C182_selector _ 2 20 4 4 false rfl rfl).2 (Or.inr ⟨rfl, rfl⟩)
example : ¬ Works ⟨.widths [50, 3], 4, 100, false, none, false⟩ 20 4 false := by rw [C182_list _ [50] 3 20 4 false rfl rfl rfl]; decide
example : Works ⟨.widths [50, 3], 4, 100, true, none, false⟩ 20 4 false := (C182_list_heads _ [50] 3 20 4 false rfl rfl rfl).2 rfl

-- C187: a tree type inside scengen_dict is ignored, given directly it counts
def exD : Ctor.Dict := fun k => if k = "tree_type" then some (.str "NeuralGas") else if k = "probabilistic" then some (.bool true) else none

example : (match ffnn ["split_heads", "selector", "skip_connection"] (.other 1) exD with
    | .ok o => decide (o.gen.sg.own "tree_type" = some (.str "NeuralGas")) && decide (o.loss = .likelihood)
    | .error _ => false) = true := by decide +kernel

example : (match ffnn ["split_heads", "selector", "skip_connection"] (.other 1) (exD.set "probabilistic_loss_kind" (.str "crps")) with
    | .ok o => decide (o.loss = .likelihood) && decide (o.attrs "probabilistic_loss_kind" = some (.str "crps"))
    | .error _ => false) = true := by decide +kernel

end PyF.NnIo
