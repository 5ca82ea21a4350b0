import Verif.Lstm.Props

namespace PyF.Lstm

open PyF

/-- Mean, and range as scale; training counts samples; the network returns the last value of the window and the first exogenous value. -/
def exExt : Ext ℕ :=
  { stats := fun x => (x.sum / x.length, x.foldr max (x.headD 0) - x.foldr min (x.headD 0)), exogScaler := fun _ r => r,
    train := fun _ a b => a.seq.length + b.seq.length, net := fun _ s e => [s.getLastD 0, e.headD 0] }

def exDf : List Row := [⟨0, 1, [10]⟩, ⟨1, 2, [11]⟩, ⟨2, 4, [12]⟩, ⟨3, 8, [13]⟩, ⟨4, 16, [14]⟩, ⟨5, 5, [15]⟩]

/-- History 2, horizon 2: three samples. -/
example : fitArrays 2 2 [1, 2, 4, 8, 16, 5] [[10], [11], [12], [13], [14], [15]] =
    { seq := [[1, 2], [2, 4], [4, 8]], exog := [[11], [12], [13]], y := [[4, 8], [8, 16], [16, 5]] } := by decide +kernel

example : (fitArrays 2 2 [1, 2, 4, 8, 16, 5] [[10], [11], [12], [13], [14], [15]]).seq[3 - 2]? = some (history 2 3 [1, 2, 4, 8, 16, 5]) :=
  ((C75_training 2 2 (by decide) [1, 2, 4, 8, 16, 5] [[10], [11], [12], [13], [14], [15]] rfl (by decide)).2.2.2 3 (by decide) (by decide)).1

def exSt : State ℕ := { mean := 0, scale := 1, exog := id, weights := 3 }

/-- Labels 2..5; the row labelled 5 uses values up to 4. -/
example : (match predict exExt 2 exSt exDf with | .ok o => decide (o = [(2, [2, 11]), (3, [4, 12]), (4, [8, 13]), (5, [16, 14])]) | .error _ => false) = true := by decide +kernel

example : predict exExt 2 exSt (exDf ++ [⟨6, 7, [0]⟩]) = predict exExt 2 exSt (exDf ++ [⟨6, 100, [99]⟩]) := C75_newest_unused exExt 2 (by decide) exSt exDf _ _ rfl

example : fit exExt 4 3 (1 / 5) none exDf = .error .assertionError := (C75_fit_outcome exExt 4 3 _ none exDf).1 (by decide)

example : splitIndex (1 / 5) 13 = 10 := by decide +kernel

example : ∃ t i j, i < 3 ∧ 3 ≤ j ∧ j < 5 ∧ Predicts 2 4 i t ∧ Predicts 2 4 j t := (C129_target_overlap 2 4 3 5 (by decide) (by decide)).2 (by decide)

/-- The hypothesis on mean and scale holds in the example: factor 10, offset 3. -/
example : exExt.stats ((exDf.map Row.target).map (fun v => 10 * v + 3)) = (10 * (exExt.stats (exDf.map Row.target)).1 + 3, 10 * (exExt.stats (exDf.map Row.target)).2) := by decide +kernel

example (st : State ℕ) (hf : fit exExt 2 2 (1 / 5) none exDf = .ok st) : ∃ st', fit exExt 2 2 (1 / 5) none (exDf.map (Row.units 10 3)) = .ok st' ∧
    ∀ out, predict exExt 2 st exDf = .ok out → predict exExt 2 st' (exDf.map (Row.units 10 3)) = .ok (out.map (fun o => (o.1, o.2.map (fun v => 10 * v + 3)))) :=
  C130_units exExt 2 2 (1 / 5) 10 3 (by norm_num) none exDf exDf (by decide +kernel) st hf

end PyF.Lstm
