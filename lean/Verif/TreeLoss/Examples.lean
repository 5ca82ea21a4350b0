import Verif.TreeLoss.Props
import Verif.TreeLoss.Deriv
import Mathlib.Tactic.FinCases
import Mathlib.Tactic.NormNum

/-! Concrete instances: a root with two leaves, three scenarios of two steps. -/

namespace PyF.TreeLoss
open PyF PyF.TreeBuild

def exIdx : Nat → Fin 2 → Fin 3 := fun t p => if t = 0 then 0 else if p = 0 then 1 else 2
def exS : Fin 2 → Fin 3 → ℚ := fun t k => if t = 0 then ![0, 1, 5] k else ![-1, 0, 4] k
def exV : Fin 3 → ℚ := ![1, -1, 3]

/-- the hypotheses of the theorems are met -/
example : (∀ p, exIdx (0 : Fin 2) p = 0) ∧ ∀ (t : Fin 2) p, exIdx t p = 0 → t = 0 := by decide +kernel
example : ∀ (t : Fin 2) p (t' : Fin 2) p', exIdx t p = exIdx t' p' → t = t' := by decide +kernel
/-- loss and gradient -/
example : metricLoss (fun t : Fin 2 => exIdx t) exS exV = 1/2 + 1/2 + 17/2 := by decide +kernel
example : (fun i => gradLoss (fun t : Fin 2 => exIdx t) exS exV i) = ![-3, -1, -1] := by decide +kernel
/-- with rate 1 (`1·3 > 2`) the root leaves the mean 2: -1, 2, -4 … -/
example : (fun j : Fin 4 => descend (gradLoss (fun t : Fin 2 => exIdx t) exS) 1 exV j 0 - 2) = ![-1, 2, -4, 8] := by decide +kernel
/-- and the loss rises -/
example : metricLoss (fun t : Fin 2 => exIdx t) exS exV < metricLoss (fun t : Fin 2 => exIdx t) exS (descend (gradLoss (fun t : Fin 2 => exIdx t) exS) 1 exV 2) := by decide +kernel
/-- the default rate for three scenarios is 1/3 and meets the condition of descent -/
example : (none : Option ℚ) = none ∧ 3 ≤ 10 * 2 ∧ 3 ≤ 5 * 2 ∧ 2 ≤ 2 := by decide
example : metricLoss (fun t : Fin 2 => exIdx t) exS (descend (gradLoss (fun t : Fin 2 => exIdx t) exS) (1/3) exV 1) < metricLoss (fun t : Fin 2 => exIdx t) exS exV := by decide +kernel
/-- a leaf far from all scenarios does not move -/
example : descend (gradLoss (fun t : Fin 2 => exIdx t) exS) (1/3) ![1, 0, 100] 1 2 = 100 := by decide +kernel
example : ∀ (t : Fin 2) p k, exIdx t p = 2 → ∃ q, (∑ s : Fin 2, (exS s k - (![1, 0, 100] : Fin 3 → ℚ) (exIdx s q)) ^ 2) / ((2 : ℕ) : ℚ) < (∑ s : Fin 2, (exS s k - (![1, 0, 100] : Fin 3 → ℚ) (exIdx s p)) ^ 2) / ((2 : ℕ) : ℚ) := by decide +kernel
/-- bounds as in the range theorem -/
example : (∀ i : Fin 3, (-1 : ℚ) ≤ exV i ∧ exV i ≤ 5) ∧ ∀ t k, (-1 : ℚ) ≤ exS t k ∧ exS t k ≤ 5 := by decide +kernel
/-- a single nearest path for every scenario -/
example : ∀ (k : Fin 3) (p : Fin 2), p ≠ (![0, 0, 1] : Fin 3 → Fin 2) k → dist (fun t : Fin 2 => exIdx t) exS exV k ((![0, 0, 1] : Fin 3 → Fin 2) k) < dist (fun t : Fin 2 => exIdx t) exS exV k p := by decide +kernel
/-- a tree without loss -/
example : metricLoss (fun t : Fin 2 => exIdx t) (fun t k => exV (exIdx t k)) exV = 0 := by decide +kernel

end PyF.TreeLoss
