import Verif.NNTrain.Stop
import Mathlib.Algebra.Order.Ring.Rat

/-!
Concrete training runs meeting the hypotheses of the theorems.
-/

namespace PyF.NNTrain

open PyF

/-- Eleven rows, batches of two, an evaluation every second step; the parameter counts the steps and the loss is least after five. -/
def exCfg (epochs : ℕ) : Cfg ℚ Unit ℚ :=
  { n := 11, batchSize := some 2, nEpochs := epochs, statsStep := 2, relTol := 1 / 100, stoppingRounds := 3, step := fun p o _ => (p + 1, o), loss := fun _ p => some ((p - 5) * (p - 5)), perm := fun _ => (List.range 11).reverse }

/-- The run stops at the third evaluation and goes back to the parameters of the second. -/
theorem ex_stops : (match fit (exCfg 4) 0 () 100 with | .ok (st, true, p) => decide (p = 5 ∧ st.pars = 7 ∧ st.evals.length = 3 ∧ st.steps.length = 7) | _ => false) = true := by
  decide +kernel

example : ∃ st p, fit (exCfg 4) 0 () 100 = .ok (st, true, p) ∧ p = 5 ∧ st.evals.length = 3 := by
  have h := ex_stops
  cases hf : fit (exCfg 4) 0 () 100 with
  | error e => rw [hf] at h; cases h
  | ok q =>
    obtain ⟨st, fin, p⟩ := q
    rw [hf] at h
    cases fin with
    | false => cases h
    | true =>
      simp only [decide_eq_true_eq] at h
      exact ⟨st, p, rfl, h.1, h.2.2.1⟩

/-- One epoch is not enough to stop. -/
theorem ex_exhausted : (match fit (exCfg 1) 0 () 100 with | .ok (st, false, p) => decide (p = 5 ∧ st.evals.length = 2 ∧ st.steps.length = 5) | _ => false) = true := by
  decide +kernel

example : 0 < (exCfg 4).relTol := by decide +kernel

example : ((exCfg 4).perm 0).Perm (List.range (exCfg 4).n) := List.reverse_perm _

/-- The batches of an epoch. -/
example : epochBatches (exCfg 1) 0 = [[10, 9], [8, 7], [6, 5], [4, 3], [2, 1]] := by decide +kernel

/-- A loss that is always NaN. -/
example : fit { exCfg 4 with loss := fun _ _ => none } 0 () 100 = .error .indexError :=
  C118_nan_raises _ 0 () 100 (by decide) (by decide) (fun _ _ => rfl) (by decide)

/-- One NaN evaluation alone goes unnoticed. -/
example : (match fit { exCfg 1 with loss := fun _ _ => none, statsStep := 3 } 0 () 100 with | .ok (st, false, p) => decide (p = 5 ∧ st.evals.length = 1) | _ => false) = true := by
  decide +kernel

/-- Nine rows and no batch size. -/
example : fit { exCfg 4 with n := 9, batchSize := none } 0 () 100 = .error .zeroDivisionError :=
  (C119_default_batch _ rfl (by decide) 0 () 100).2 (by decide)

/-- A batch size above the number of rows. -/
example : fit { exCfg 4 with batchSize := some 12 } 0 () 100 = .ok (start 0 () 100, false, 0) := C119_large_batch _ 12 rfl (by decide) 0 () 100

/-- Patience makes no difference. -/
example : fit (withRounds (exCfg 4) 0) 0 () 100 = fit (withRounds (exCfg 4) 1000) 0 () 100 := C120_stopping_rounds_dead _ (by decide +kernel) 0 1000 (by decide) (by decide) 0 () 100

/-- Without a positive tolerance it does: a negative one lets the run go on until the patience is used up. -/
example : (match fit (withRounds { exCfg 9 with relTol := -1000000000 } 3) 0 () 100, fit (withRounds { exCfg 9 with relTol := -1000000000 } 5) 0 () 100 with
    | .ok (_, true, p), .ok (_, true, p') => decide (p = 11 ∧ p' = 15) | _, _ => false) = true := by
  decide +kernel

end PyF.NNTrain
