import Verif.Fast.Fourier
import Verif.Fast.Linear

/-! Concrete instances of the hypotheses of the theorems on the fast adaptive models. -/

namespace PyF.Fast

example : (match recentHistory [1, 2, 3, 4, 5] [10, 20, 30] 0 1, recentHistory [1, 2, 3, 4, 5] [10, 20, 30] 2 4 with
    | .ok a, .ok b => decide (a = [30, 1, 2]) && decide (b = [3, 4, 5]) | _, _ => false) = true := by decide +kernel

/-- A configuration over the rationals with a constant basis function. -/
def exCfg (nsa period : Nat) : Fcfg ℚ :=
  { m := 2, nsa := nsa, period := period, alpha := 1/2, omega := 1/2, d := 0, B := fun _ _ => 1/2, sqrtM := 2 }

example : (match fRun (exCfg 3 3) (fFresh (exCfg 3 3)) [1, 2, 3] with | .ok _ => false | .error e => decide (e = .indexError)) = true := by decide +kernel
example : (match fRun (exCfg 1 1) (fFresh (exCfg 1 1)) [4, 2] with | .ok r => decide (r.2.length = 2 ∧ ∀ x ∈ r.2, x.length = 1) | .error _ => false) = true := by
  decide +kernel
example : (match fPredict (exCfg 1 1) (fFresh (exCfg 1 1)) [4, 2], fFit (exCfg 1 1) (fFresh (exCfg 1 1)) [4, 2] with
    | .ok p, .ok f => decide (p.1.w = [0, 0]) && decide (f.1.w = [4, 2]) && decide (p.2 = f.2) | _, _ => false) = true := by decide +kernel

/-- `FK` object whose coefficients are running sums. -/
def exFK : FK ℚ ℚ ℚ ℚ := { m := 2, zero := 0, upd := fun y i s => (s + y.getD i 0, s + y.getD i 0, 2 * s), refresh := fun s h => s + h.sum }

example : (fkRun exFK ⟨1, []⟩ [1, 2, 3] false).1.hist = [2, 4, 7] ∧ (fkRun exFK ⟨1, []⟩ [1, 2, 3] false).2 = [2, 4, 8] := by decide +kernel
example : (fkRun exFK (fkRun exFK ⟨1, []⟩ [5, 5] false).1 [1, 2, 3] false).2 = (fkRun exFK ⟨1, []⟩ [1, 2, 3] false).2 := by decide +kernel

example : ∃ w, weights ![(1 : ℝ), -3] = some w ∧ combine w ![10, 20] = 35 / 2 := by
  refine ⟨_, if_neg (by simp [Fin.sum_univ_two]; norm_num), ?_⟩
  unfold combine
  simp only [Fin.sum_univ_two, Matrix.cons_val_zero, Matrix.cons_val_one]
  norm_num [abs_of_pos, abs_of_neg]

example : ∃ (preds : Fin 2 → Nat → Nat → ℝ) (y : Nat → ℝ), (∀ r sa, preds 0 r sa = y (r + 1 + sa)) ∧ (∀ r sa, preds 1 r sa = y (r + sa)) ∧ y (3 + 1) ≠ y 3 :=
  ⟨fun e r sa => if e = 0 then ((r + 1 + sa : Nat) : ℝ) else ((r + sa : Nat) : ℝ), fun t => t, fun _ _ => by simp, fun _ _ => by simp, by norm_num⟩

/-- C251: the sum of two series, in other units. -/
example : (match fFit (exCfg 1 1) (fFresh (exCfg 1 1)) [4, 2], fFit (exCfg 1 1) (fFresh (exCfg 1 1)) [1, 8], fFit (exCfg 1 1) (fFresh (exCfg 1 1)) [3 * 4 + 1, 3 * 2 + 8] with
    | .ok p, .ok q, .ok r => decide (r.2 = List.zipWith (List.zipWith (fun a b => 3 * a + b)) p.2 q.2 ∧ r.2 ≠ [[0], [0]]) | _, _, _ => false) = true := by decide +kernel

end PyF.Fast
