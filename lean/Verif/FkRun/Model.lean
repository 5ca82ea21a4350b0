import Verif.Common
import Verif.Fast.Model
import Mathlib.Data.Matrix.Mul
import Mathlib.Analysis.Real.Sqrt

/-!
Model of `FK_multi.run`, `FK_multi.fit` and `FK_multi.predict`, pyforecaster/forecasting_models/fast_adaptive_models.py
L471-491, L496-587, with `kalman`, pyforecaster/utilities.py L29-47.

Simplifications: exact real arithmetic; a vector or matrix containing NaN is `none` (all entries of the vectors concerned
become NaN together). The experts are parameters: a common state, `fit` and `predict`. `np.linalg.pinv` is an arbitrary
function; on a matrix with NaN it raises (numba checks for finite entries), and the exception is swallowed at L555. `F` and
`H` are identity matrices (L480-481). The search for hyper-parameters and the error quantiles are not part of this file.
-/

namespace PyF.FkRun

open PyF

variable {k : ℕ}

/-- A vector of weights, one per expert. -/
abbrev Vec (k : ℕ) := Fin k → ℝ
/-- A square matrix. -/
abbrev Mat (k : ℕ) := Matrix (Fin k) (Fin k) ℝ

/-- The dictionary `states`, L465. -/
structure St (k : ℕ) where
  x : Option (Vec k)
  P : Mat k
  Q : Option (Mat k)
  R : Option (Mat k)

/-- Constructor parameters, with `np.linalg.pinv`. -/
structure Cfg (k : ℕ) where
  m : ℕ
  nsa : ℕ
  r : ℝ
  q : ℝ
  pinv : Mat k → Mat k

/-- States after `reinit_pars`, L483-486. -/
noncomputable def fresh (c : Cfg k) : St k :=
  { x := some (fun _ => 1 / (k : ℝ)), P := (1000 : ℝ) • 1, Q := some (c.q • 1), R := some (c.r • 1) }

/-- The gain of `kalman_update`, utilities.py L36-37, after the prediction step L32. -/
def gain (c : Cfg k) (P Q R : Mat k) : Mat k := (P + Q) * c.pinv (P + Q + R)

/-- `x, P = kalman(x, P, F, Q, coeffs_t, H, R)` inside `try`, L552-555: unchanged if `Q` or `R` contains NaN; NaN in `x` or in
the coefficients makes the new `x` NaN. -/
def filter (c : Cfg k) (s : St k) (y : Option (Vec k)) : St k :=
  match s.Q, s.R with
  | some Q, some R =>
    let K := gain c s.P Q R
    let P1 := s.P + Q - K * (s.P + Q)
    { s with
      x := match s.x, y with
        | some x, some y => some (x + K.mulVec (y - x))
        | _, _ => none
      P := (1 - K) * (P1 * (1 - K).transpose) + K * (R * K.transpose) }
  | _, _ => s

/-- Mean absolute error of one expert at row `i`, L547. -/
noncomputable def err (nsa : ℕ) (p : ℕ → ℕ → ℝ) (y : ℝ) (i : ℕ) : ℝ :=
  (∑ sa : Fin nsa, |p (i - sa) sa - y|) / nsa

/-- `coeffs_t` at row `i ≥ n_sa`, L547-549; a mean error of zero divides by zero. -/
noncomputable def softmax (e : Vec k) : Option (Vec k) :=
  let avg := (∑ j, e j) / k
  if avg = 0 then none else some (fun j => Real.exp (-(e j / avg)) / ∑ l, Real.exp (-(e l / avg)))

/-- Mean of column `a` of the history. -/
noncomputable def colMean (h : List (Vec k)) (a : Fin k) : ℝ := (h.map (fun v => v a)).sum / h.length

/-- Entries of `np.cov`. -/
noncomputable def colCov (h : List (Vec k)) (a b : Fin k) : ℝ :=
  (h.map (fun v => (v a - colMean h a) * (v b - colMean h b))).sum / (h.length - 1)

/-- `np.corrcoef(np.vstack(coeffs_t_history).T)`, L567: NaN as soon as a row is NaN or a column is constant. -/
noncomputable def corrcoef (h : List (Option (Vec k))) : Option (Mat k) :=
  match h.mapM id with
  | none => none
  | some l =>
    if ∃ a, colCov l a a = 0 then none
    else some (fun a b => colCov l a b / Real.sqrt (colCov l a a) / Real.sqrt (colCov l b b))

/-- One frame as the loop sees it: number of rows, observations, and the experts' forecasts by expert, row and step. -/
structure Data (k : ℕ) where
  len : ℕ
  obs : ℕ → ℝ
  p : Fin k → ℕ → ℕ → ℝ

/-- L556-562: the forecast of row `i` by step; `none` is NaN. -/
noncomputable def forecast (d : Data k) (i : ℕ) (x ct : Option (Vec k)) : Option (ℕ → ℝ) :=
  match (match x with | some v => some v | none => ct) with
  | none => none
  | some v => (Fast.weights v).map (fun w => fun s => Fast.combine w (fun j => d.p j i s))

/-- Working state of the loop. -/
structure Work (k : ℕ) where
  s : St k
  hist : List (Option (Vec k))
  rows : List (Option (ℕ → ℝ))

/-- `coeffs_t` of row `i`, L542-551. -/
noncomputable def coeffsT (c : Cfg k) (d : Data k) (s : St k) (i : ℕ) : Option (Vec k) :=
  if c.nsa ≤ i then softmax (fun j => err c.nsa (d.p j) (d.obs i) i) else s.x

/-- One pass of the loop, L541-569. Without `return_coeffs` the history is empty and `np.vstack` of nothing raises. -/
noncomputable def step (c : Cfg k) (d : Data k) (ret : Bool) (w : Work k) (i : ℕ) : Except PyErr (Work k) :=
  let ct := coeffsT c d w.s i
  let s := filter c w.s ct
  let hist := if ret then w.hist ++ [ct] else w.hist
  let rows := w.rows ++ [forecast d i s.x ct]
  if i % c.m = 0 ∧ c.m ≤ i then
    if hist.isEmpty then .error .valueError
    else .ok { s := { s with Q := corrcoef hist, R := (corrcoef hist).map (fun M => (10 : ℝ) • M) }, hist := hist, rows := rows }
  else .ok { s := s, hist := hist, rows := rows }

/-- The loop over the rows given, L541. -/
noncomputable def loop (c : Cfg k) (d : Data k) (ret : Bool) : Work k → List ℕ → Except PyErr (Work k)
  | w, [] => .ok w
  | w, i :: is =>
    match step c d ret w i with
    | .error e => .error e
    | .ok w' => loop c d ret w' is

/-- The rows of one call from the stored states, L527-570; `np.vstack` of no rows raises. -/
noncomputable def rowsOf (c : Cfg k) (d : Data k) (ret : Bool) (s : St k) : Except PyErr (Work k) :=
  match loop c d ret { s := s, hist := [], rows := [] } (List.range d.len) with
  | .error e => .error e
  | .ok w => if d.len = 0 then .error .valueError else .ok w

/-- The experts: their common state, `fit` and `predict` on a frame with its observations. -/
structure Experts (E F : Type) (k : ℕ) where
  fit : E → F → E
  predict : E → F → Fin k → ℕ → ℕ → ℝ
  len : F → ℕ
  obs : F → ℕ → ℝ

/-- An `FK_multi` object. -/
structure Obj (E : Type) (k : ℕ) where
  experts : E
  states : St k

/-- `run`, L526-579: object afterwards and forecasts. -/
noncomputable def run {E F : Type} (c : Cfg k) (ex : Experts E F k) (o : Obj E k) (f : F) (ret fit : Bool) :
    Except PyErr (Obj E k × List (Option (ℕ → ℝ))) :=
  let e := if fit then ex.fit o.experts f else o.experts
  match rowsOf c { len := ex.len f, obs := ex.obs f, p := ex.predict e f } ret o.states with
  | .error err => .error err
  | .ok w => .ok ({ experts := e, states := if fit then w.s else o.states }, w.rows)

/-- `predict`, L522, and the run inside `fit`, L504: both with `return_coeffs=True`. -/
noncomputable def call {E F : Type} (c : Cfg k) (ex : Experts E F k) (o : Obj E k) (f : F) (fit : Bool) :
    Except PyErr (Obj E k × List (Option (ℕ → ℝ))) := run c ex o f true fit

/-- A sequence of calls: object afterwards and the forecasts of each. -/
noncomputable def calls {E F : Type} (c : Cfg k) (ex : Experts E F k) : Obj E k → List (F × Bool) →
    Except PyErr (Obj E k × List (List (Option (ℕ → ℝ))))
  | o, [] => .ok (o, [])
  | o, (f, b) :: fs =>
    match call c ex o f b with
    | .error e => .error e
    | .ok (o', r) =>
      match calls c ex o' fs with
      | .error e => .error e
      | .ok (o'', rs) => .ok (o'', r :: rs)

end PyF.FkRun
