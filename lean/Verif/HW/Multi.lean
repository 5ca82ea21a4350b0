import Verif.HW.Model
import Verif.Quantile.Model

/-!
The rest of `pyforecaster/forecasting_models/holtwinters.py`: the error table of `HoltWinters.fit` (L188-215) for a frame with
the target column only, and the combination of submodels in `HoltWintersMulti` (L388-466).
-/

namespace PyF.HW

/-- Least-squares coefficient of the residuals on the single covariate, L202: `pinv(x'x) (x' r)`; the pseudo-inverse of the
1×1 matrix 0 is 0. -/
def slope (l : List (ℚ × ℚ)) : ℚ := (l.map (fun p => p.1 * p.1)).sum⁻¹ * (l.map (fun p => p.1 * p.2)).sum

/-- The errors the table of one step is computed from, L203-205: residuals of the corrected predictions. A pair holds the
observed target at a row and the residual of the uncorrected prediction. -/
def tabulated (l : List (ℚ × ℚ)) : List ℚ := l.map (fun p => p.2 - p.1 * slope l)

/-- One column of `err_distr`, L214. -/
def errColumn (qv : List ℚ) (l : List (ℚ × ℚ)) : List ℚ := qv.map (Quantile.quantileVal (tabulated l))

/-- The pairs of step `j`, L193-201: row `t`, target `y[t+1+j]` (`hankel(y[1:], n_sa)`), prediction `R[t][j]`. -/
def pairs (nsa : Nat) (y : List ℚ) (R : List (List V)) (j : Nat) : List (ℚ × ℚ) :=
  (List.range (y.length - nsa)).map (fun (t : Nat) => (y.getD t 0, y.getD (t + 1 + j) 0 - (((R.getD t []).getD j none).getD 0)))

/-- A filled array: value written at each position, `none` for positions still zero. -/
abbrev Filled (α : Type) := Nat → Option α

/-- The loop shared by `HoltWintersMulti.fit` L434-439 and `predict` L449-454: submodel `i` with period (number of steps)
`n` writes positions `k, …, n-1`; then `k` is set by `next`. Writing beyond `nsa` raises `IndexError`. -/
def fillLoop {α : Type} (next : Nat → Nat) (nsa : Nat) : Nat → Filled α → List (Nat × (Nat → α)) → Except PyErr (Filled α)
  | _, out, [] => .ok out
  | k, out, m :: ms =>
    if k < m.1 ∧ nsa < m.1 then .error .indexError
    else fillLoop next nsa (next m.1) (fun c => if k ≤ c ∧ c < m.1 then some (m.2 c) else out c) ms

/-- Columns of `HoltWintersMulti.predict`, L446-455: `k = y_hat_m.shape[1]`, the submodel's number of steps. -/
def multiPredict {α : Type} (nsa : Nat) (ms : List (Nat × (Nat → α))) : Except PyErr (Filled α) :=
  fillLoop (fun n => n) nsa 0 (fun _ => none) ms

/-- Rows of `err_distr` in `HoltWintersMulti.fit`, L432-439: `k = m.err_distr.shape[1]`, the number of quantile levels. -/
def multiTable {α : Type} (nq nsa : Nat) (ms : List (Nat × (Nat → α))) : Except PyErr (Filled α) :=
  fillLoop (fun _ => nq) nsa 0 (fun _ => none) ms

end PyF.HW
