import Verif.Common
import Mathlib.Algebra.Field.Basic
import Mathlib.Algebra.BigOperators.Fin
import Mathlib.Analysis.SpecialFunctions.Trigonometric.Basic
import Mathlib.Analysis.SpecialFunctions.Pow.Real

/-!
Model of `pyforecaster/forecasting_models/fast_adaptive_models.py`. Hyper-parameter search is not modelled. `Fourier_es` is
modelled over any field with an arbitrary matrix of basis functions (`get_basis` is the real instance); the Kalman step and
`np.corrcoef` inside `FK` are arbitrary functions.
-/

namespace PyF.Fast

/-! ### Recent history -/

/-- Python's `y[a:b]` for `0 ≤ a`. -/
def slice {α : Type} (y : List α) (a b : Nat) : List α := (y.take b).drop a

/-- `np.roll(w, -k)`, `k ≤ len(w)`. -/
def rollLeft {α : Type} (w : List α) (k : Nat) : List α := w.drop k ++ w.take k

/-- `generate_recent_history`, L27-44 and L105-122, also L275-280. Writing `len(y_w)` values into the last `len(y_w)` places
fails (`ValueError`) for none (`w[-0:]` is all of `w`) and for more than `m`. -/
def recentHistory {α : Type} (y w : List α) (start i : Nat) : Except PyErr (List α) :=
  let m := w.length
  let yw := slice y start (i + 1)
  if yw.length = m then .ok yw
  else if yw.length = 0 ∨ m < yw.length then .error .valueError
  else .ok ((rollLeft w yw.length).take (m - yw.length) ++ yw)

/-! ### Fourier_es -/

/-- `get_basis`, L17-25: row `t` for window length `l` and `nh` harmonics: constant, then sine and cosine of each. -/
noncomputable def getBasis (l nh : Nat) (t : Nat) (a : Fin (2 * nh + 1)) : ℝ :=
  (if a.val = 0 then 1 / Real.sqrt 2
   else if a.val % 2 = 1 then Real.sin (2 * Real.pi * (((a.val - 1) / 2 + 1 : Nat) : ℝ) * t / l)
   else Real.cos (2 * Real.pi * (((a.val - 1) / 2 + 1 : Nat) : ℝ) * t / l)) * Real.sqrt (2 / l)

/-- Constructor parameters of `Fourier_es`, L155-188, with the matrix `P_future` given by its rows (L196-199). `sqrtM` is
`np.sqrt(m)`. -/
structure Fcfg (K : Type) where
  m : Nat
  nsa : Nat
  period : Nat
  alpha : K
  omega : K
  d : Nat
  B : Nat → Fin (d + 1) → K
  sqrtM : K

/-- The dictionary `states`, L185. -/
structure Fst (K : Type) (d : Nat) where
  x : Option (Fin (d + 1) → K)
  w : List K
  eps : K
  last : K

variable {K : Type} [Field K]

/-- Number of rows of `P_future`, L198. -/
def Fcfg.rows (c : Fcfg K) : Nat := 2 * c.m + max c.nsa c.period

/-- Python's slice `[s : e]` of `n` rows, as the list of row numbers. -/
def pySlice (n : Nat) (s e : Int) : List Nat :=
  let a : Nat := if s < 0 then (n + s).toNat else min s.toNat n
  let b : Nat := if e < 0 then (n + e).toNat else min e.toNat n
  (List.range b).drop a

/-- One row times a coefficient vector. -/
def dot {d : Nat} (r x : Fin (d + 1) → K) : K := ∑ a, r a * x a

/-- `coeffs_t = P_past[-len(w):,:].T @ w`, L226 and L236, with `P_past` the rows `i % m, …, i % m + m - 1`. -/
def project (c : Fcfg K) (i : Nat) (w : List K) : Fin (c.d + 1) → K :=
  fun a => ((List.range c.m).map (fun (r : Nat) => c.B (i % c.m + r) a * w.getD r 0)).sum

/-- `last_preds = (P_f @ x).ravel()`, L228 and L238. -/
def project' (c : Fcfg K) (i : Nat) (x : Fin (c.d + 1) → K) : List K :=
  (pySlice c.rows (((i % c.m + c.m : Nat) : Int) - c.period) (((i % c.m + c.m : Nat) : Int) - c.period + c.nsa)).map (fun (r : Nat) => dot (c.B r) x)

/-- `last_preds + eps*(n_sa - arange(n_sa))**2/n_sa**2`, L240. -/
def addEps (c : Fcfg K) (eps : K) (p : List K) : List K :=
  (List.range c.nsa).map (fun (h : Nat) => p.getD h 0 + eps * (((c.nsa - h : Nat) : K) ^ 2) / ((c.nsa : K) ^ 2))

/-- Working state of the loop. -/
structure Work (K : Type) (d : Nat) where
  x : Fin (d + 1) → K
  w : List K
  eps : K
  last : K

/-- One pass of the loop of `Fourier_es.run`, L225-242; `i` counts from the start of this call. `last_preds[0]` of an empty
slice raises `IndexError`. (Non-empty slices always have `n_sa` rows.) -/
def fStep (c : Fcfg K) (wInit y : List K) (s : Work K c.d) (i : Nat) : Except PyErr (Work K c.d × List K) :=
  match recentHistory y wInit (i + 1 - c.m) i with
  | .error e => .error e
  | .ok w =>
    let eps := c.omega * (w.getLastD 0 - s.last) + (1 - c.omega) * s.eps
    let ct := project c i w
    let x : Fin (c.d + 1) → K := fun a => c.alpha * ct a + (1 - c.alpha) * s.x a
    match project' c i x with
    | [] => .error .indexError
    | p :: ps => .ok ({ x := x, w := w, eps := eps, last := p }, addEps c eps (p :: ps))

/-- The loop, for the sample numbers given. -/
def fLoop (c : Fcfg K) (wInit y : List K) : Work K c.d → List Nat → Except PyErr (Work K c.d × List (List K))
  | s, [] => .ok (s, [])
  | s, i :: is =>
    match fStep c wInit y s i with
    | .error e => .error e
    | .ok (s', r) =>
      match fLoop c wInit y s' is with
      | .error e => .error e
      | .ok (s'', rs) => .ok (s'', r :: rs)

/-- The coefficients a run starts from, L215-217. -/
def initX (c : Fcfg K) (st : Fst K c.d) (y0 : K) : Fin (c.d + 1) → K :=
  match st.x with
  | some x => x
  | none => fun a => if a.val = 0 then y0 * c.sqrtM else 0

/-- `Fourier_es.run(x, y, start_from=0)`, L208-250: resulting states (stored only when fitting, L245) and predictions. An
empty input fails at `y[0]` (L217 or L220). -/
def fRun (c : Fcfg K) (st : Fst K c.d) (y : List K) : Except PyErr (Fst K c.d × List (List K)) :=
  match y with
  | [] => .error .indexError
  | y0 :: _ =>
    match fLoop c st.w y { x := initX c st y0, w := st.w, eps := st.eps, last := st.last } (List.range y.length) with
    | .error e => .error e
    | .ok (s, rs) => .ok ({ x := some s.x, w := s.w, eps := s.eps, last := s.last }, rs)

/-- States of a new object, L185-193. -/
def fFresh (c : Fcfg K) : Fst K c.d := { x := none, w := List.replicate c.m 0, eps := 0, last := 0 }

/-- `fit` keeps the states, L140 and L245. -/
def fFit (c : Fcfg K) (st : Fst K c.d) (y : List K) : Except PyErr (Fst K c.d × List (List K)) := fRun c st y

/-- `predict`, L202-205: same run, states discarded. Returns the object's states afterwards and the predictions. -/
def fPredict (c : Fcfg K) (st : Fst K c.d) (y : List K) : Except PyErr (Fst K c.d × List (List K)) :=
  match fRun c st y with
  | .error e => .error e
  | .ok (_, rs) => .ok (st, rs)

/-! ### FK: predictions and the growing coefficient history -/

/-- The part of `FK.run` (L376-409) that concerns `coeffs_t_history`. `S` holds the filter states; `upd i s` is one pass of
`update_predictions` (L267-292) up to the assignment of column `i`, giving the new states, the coefficients and the
prediction row; `refresh` is the re-estimation of `Q` and `R` from the stored columns (L294-296). -/
structure FK (S C Y R : Type) where
  m : Nat
  zero : C
  upd : List Y → Nat → S → S × C × R
  refresh : S → List C → S

/-- The loop of `update_predictions`, L264-299. -/
def fkLoop {S C Y R : Type} (k : FK S C Y R) (y : List Y) : List C → S → List Nat → S × List C × List R
  | hist, s, [] => (s, hist, [])
  | hist, s, i :: is =>
    let u := k.upd y i s
    let hist' := hist.set i u.2.1
    let s' := if i % k.m = 0 ∧ k.m ≤ i then k.refresh u.1 (hist'.take i) else u.1
    let r := fkLoop k y hist' s' is
    (r.1, r.2.1, u.2.2 :: r.2.2)

/-- An `FK` object: stored states and `coeffs_t_history`. -/
structure FKObj (S C : Type) where
  states : S
  hist : List C

/-- `FK.run`, L376-409: `coeffs_t_history` is extended by `len(y)` rows of zeros (L392-395) and stored back in any case
(L405), the states only when fitting (L402). -/
def fkRun {S C Y R : Type} (k : FK S C Y R) (o : FKObj S C) (y : List Y) (fit : Bool) : FKObj S C × List R :=
  let r := fkLoop k y (o.hist ++ List.replicate y.length k.zero) o.states (List.range y.length)
  ({ states := if fit then r.1 else o.states, hist := r.2.1 }, r.2.2)

/-! ### FK_multi -/

/-- `np.abs(coeffs / np.abs(coeffs).sum())`, L561; `none` is NaN (division by zero). -/
noncomputable def weights {n : Nat} (x : Fin n → ℝ) : Option (Fin n → ℝ) :=
  if ∑ j, |x j| = 0 then none else some (fun j => abs (x j / ∑ k, |x k|))

/-- `preds_experts[i] @ coeffs`, L562, one step ahead. -/
noncomputable def combine {n : Nat} (w p : Fin n → ℝ) : ℝ := ∑ j, p j * w j

/-- L547: the error of one expert at row `i`: mean over `sa` of `|preds[i-sa, sa] - y[i]|`. -/
noncomputable def expertErr (nsa : Nat) (preds : Nat → Nat → ℝ) (y : Nat → ℝ) (i : Nat) : ℝ :=
  ((List.range nsa).map (fun (sa : Nat) => |preds (i - sa) sa - y i|)).sum / nsa

/-- L548-549: coefficients of the experts at row `i ≥ n_sa`. -/
noncomputable def expertCoeffs {n : Nat} (nsa : Nat) (preds : Fin n → Nat → Nat → ℝ) (y : Nat → ℝ) (i : Nat) (j : Fin n) : ℝ :=
  let e : Fin n → ℝ := fun k => expertErr nsa (preds k) y i
  let z : Fin n → ℝ := fun k => e k / ((∑ l, e l) / n)
  Real.exp (-(z j)) / ∑ k, Real.exp (-(z k))

end PyF.Fast
