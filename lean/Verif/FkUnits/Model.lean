import Verif.Fast.Model
import Mathlib.Analysis.Real.Sqrt
import Mathlib.Data.Matrix.Mul

/-!
Model of the filter inside `FK` (fast_adaptive_models.py L264-299 and L349-409) with `kalman` (utilities.py L29-47) and
`np.corrcoef`, over ℝ. `np.linalg.pinv` is an arbitrary function on matrices without NaN. Once `Q` and `R` hold NaN the next
`pinv` raises `LinAlgError` or returns NaN, depending on the version of numba; both are written `none`: there is no
forecast. The window, the projections and the decay of the last error are those of `Fourier_es` (`Fast.Model`), which the
code repeats line by line. Fits with `start_from = 0`, no hyper-parameter search.
-/

namespace PyF.FkUnits

open PyF.Fast

/-- Square matrices with one row per coefficient. -/
abbrev Mat (d : Nat) := Matrix (Fin (d + 1)) (Fin (d + 1)) ℝ

/-- Coefficient vectors. -/
abbrev Vec (d : Nat) := Fin (d + 1) → ℝ

/-- `kalman`, utilities.py L29-47, with `F = H = I` (fast_adaptive_models.py L352-353). -/
noncomputable def kalman {d : Nat} (pinv : Mat d → Mat d) (x : Vec d) (P Q : Mat d) (y : Vec d) (R : Mat d) : Vec d × Mat d :=
  let P1 := P + Q
  let K := P1 * pinv (P1 + R)
  let P2 := P1 - K * P1
  (x + K.mulVec (y - x), (1 - K) * (P2 * (1 - K).transpose) + K * (R * K.transpose))

/-- Mean of coefficient `a` over the stored columns. -/
noncomputable def mean {d : Nat} (l : List (Vec d)) (a : Fin (d + 1)) : ℝ := (l.map (fun (h : Vec d) => h a)).sum / l.length

/-- Covariance of two coefficients over the stored columns (one degree of freedom less). -/
noncomputable def cov {d : Nat} (l : List (Vec d)) (a b : Fin (d + 1)) : ℝ :=
  (l.map (fun (h : Vec d) => (h a - mean l a) * (h b - mean l b))).sum / ((l.length : ℝ) - 1)

open Classical in
/-- `np.corrcoef`, L295: covariances divided by both deviations, clipped to [-1, 1]. NaN arises with fewer than two columns
or a coefficient that does not vary. -/
noncomputable def corrcoef {d : Nat} (l : List (Vec d)) : Option (Mat d) :=
  if l.length < 2 ∨ ∃ a, cov l a a = 0 then none
  else some (fun a b => max (-1) (min 1 (cov l a b / Real.sqrt (cov l a a) / Real.sqrt (cov l b b))))

/-- The states `x`, `P`, `Q`, `R`, L345. -/
structure Filter (d : Nat) where
  x : Vec d
  P : Mat d
  Q : Mat d
  R : Mat d

/-- The states and `coeffs_t_history` (one entry per column). No filter: `Q` and `R` hold NaN. -/
structure St (d : Nat) where
  filter : Option (Filter d)
  w : List ℝ
  eps : ℝ
  hist : List (Vec d)

/-- `reinit_pars`, L349-363; `eps` is `None`, which `run` reads as 0 (L386-387). -/
noncomputable def fresh (c : Fcfg ℝ) (q r : ℝ) : St c.d :=
  { filter := some { x := 0, P := (1000 : ℝ) • (1 : Mat c.d), Q := q • (1 : Mat c.d), R := r • (1 : Mat c.d) }
    w := List.replicate c.m 0, eps := 0, hist := [] }

/-- `Q` and `R` after sample `i`, L294-296. -/
noncomputable def refresh {d : Nat} (m i : Nat) (hist : List (Vec d)) (F : Filter d) : Option (Filter d) :=
  if i % m = 0 ∧ m ≤ i then
    match corrcoef (hist.take i) with
    | none => none
    | some Q => some { F with Q := Q, R := (1 / 100 : ℝ) • Q }
  else some F

/-- One pass of the loop, L268-296. -/
noncomputable def step (c : Fcfg ℝ) (pinv : Mat c.d → Mat c.d) (wInit y : List ℝ) (s : St c.d) (i : Nat) :
    Except PyErr (St c.d × Option (List ℝ)) :=
  match recentHistory y wInit (i + 1 - c.m) i with
  | .error e => .error e
  | .ok w =>
    match s.filter with
    | none => .ok ({ s with w := w }, none)
    | some F =>
      let k := kalman pinv F.x F.P F.Q (project c i w) F.R
      match project' c i k.1 with
      | [] => .error .indexError
      | p :: ps =>
        let eps := c.omega * (w.getLastD 0 - p) + (1 - c.omega) * s.eps
        let hist := s.hist.set i k.1
        .ok ({ filter := refresh c.m i hist { F with x := k.1, P := k.2 }, w := w, eps := eps, hist := hist },
             some (addEps c eps (p :: ps)))

/-- The loop, L267. -/
noncomputable def loop (c : Fcfg ℝ) (pinv : Mat c.d → Mat c.d) (wInit y : List ℝ) :
    St c.d → List Nat → Except PyErr (St c.d × List (Option (List ℝ)))
  | s, [] => .ok (s, [])
  | s, i :: is =>
    match step c pinv wInit y s i with
    | .error e => .error e
    | .ok (s', r) =>
      match loop c pinv wInit y s' is with
      | .error e => .error e
      | .ok (s'', rs) => .ok (s'', r :: rs)

/-- `run` with `fit=True`, L376-409: the history grows by one zero column per sample (L392-395). An
empty series fails at `y[0]` (L390) or, in a new object, at the unbound `w` (L299); both are written `IndexError`. -/
noncomputable def fit (c : Fcfg ℝ) (pinv : Mat c.d → Mat c.d) (s : St c.d) (y : List ℝ) :
    Except PyErr (St c.d × List (Option (List ℝ))) :=
  if y = [] then .error .indexError
  else loop c pinv s.w y { s with hist := s.hist ++ List.replicate y.length 0 } (List.range y.length)

/-- `predict`, L370-373: the same run; the states are not stored but the history is (L405). -/
noncomputable def predict (c : Fcfg ℝ) (pinv : Mat c.d → Mat c.d) (s : St c.d) (y : List ℝ) :
    Except PyErr (St c.d × List (Option (List ℝ))) :=
  match fit c pinv s y with
  | .error e => .error e
  | .ok (s', rs) => .ok ({ s with hist := s'.hist }, rs)

end PyF.FkUnits
