import Verif.NNSeed.Props
import Mathlib.Data.List.Rotate

/-!
Concrete training runs with a small generator.
-/

namespace PyF.NNSeed

open PyF PyF.NNTrain

/-- A generator that counts its draws; the order of four rows is turned by as many places. -/
def exRng : Rng ℕ :=
  { shuffle := fun g => ((List.range 4).rotate g, g + 1), sample := fun g => ((List.range 3).rotate g, g + 1), plot := fun g => g + 1 }

/-- Four rows, batches of one, an evaluation at every step; the parameter is a number whose digits are the rows seen. -/
def exCfg (epochs : ℕ) : Cfg ℚ Unit ℚ :=
  { n := 4, batchSize := some 1, nEpochs := epochs, statsStep := 1, relTol := -1, stoppingRounds := 100,
    step := fun p o rows => (10 * p + (rows.headD 0 : ℕ), o), loss := fun _ _ => none, perm := fun _ => [] }

/-- A loss that falls as the parameter grows, taken over all validation rows. -/
def exLoss (p : ℚ) (rows : List ℕ) : Option ℚ := some (-(rows.length : ℚ) * p)

/-- The parameters kept. -/
def kept (x : Except PyErr (St ℚ Unit ℚ × Bool × ℚ)) : Option ℚ := x.toOption.map (fun y => y.2.2)

/-- **C329.** With two epochs, saving plots gives another network: the second epoch sees the rows in another order. -/
theorem C329_other_network : ∃ (c : Cfg ℚ Unit ℚ) (vl : ℚ → List ℕ → Option ℚ) (r : Rng ℕ),
    (∀ g, (r.shuffle g).1.Perm (List.range c.n)) ∧ (∀ g, (r.sample g).1.Perm (List.range 3)) ∧ (∀ p l l', l.Perm l' → vl p l = vl p l') ∧
    kept (fit c vl r true 0 () 0 0) ≠ kept (fit c vl r false 0 () 0 0) := by
  refine ⟨exCfg 2, exLoss, exRng, fun g => (List.IsRotated.perm ⟨g, rfl⟩).symm, fun g => (List.IsRotated.perm ⟨g, rfl⟩).symm, ?_, by decide +kernel⟩
  intro p l l' h
  simp only [exLoss, h.length_eq]

example : kept (fit (exCfg 2) exLoss exRng true 0 () 0 0) = some 1232301 ∧ kept (fit (exCfg 2) exLoss exRng false 0 () 0 0) = some 1230123 := by
  decide +kernel

example : (exCfg 1).nEpochs ≤ 1 ∧ (∀ g, (exRng.sample g).1.Perm (List.range 3)) ∧ (∀ p l l', l.Perm l' → exLoss p l = exLoss p l') ∧
    kept (fit (exCfg 1) exLoss exRng true 0 () 0 0) = some 123 :=
  ⟨Nat.le_refl _, fun g => (List.IsRotated.perm ⟨g, rfl⟩).symm, fun p l l' h => by simp only [exLoss, h.length_eq], by decide +kernel⟩

example : ({ exCfg 1 with statsStep := 2 } : Cfg ℚ Unit ℚ).nEpochs * numBatches ({ exCfg 1 with statsStep := 2 } : Cfg ℚ Unit ℚ) ≤ 2 * 2 + 1 ∧
    kept (fit { exCfg 1 with statsStep := 2 } exLoss exRng true 0 () 0 0) = some 123 := by
  decide +kernel

end PyF.NNSeed
