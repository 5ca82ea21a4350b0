import Verif.Scenred.TreeModel

/-!
Model of the normalisation and the distances in front of the reduction of scenarios (`pyforecaster/scenred.py` L13-15, L57-84, L115-120) and of the whole of `scenred`
on an array of scenarios, with the reduction of `Verif.Scenred`.

Simplified: exact rationals; the square root of `np.std` and the metric of `pdist` are arbitrary functions (for the metric: of two vectors).
-/

namespace PyF.ScenUnits
open PyF Scenred

/-- `samples`, L57-61: by step, scenario and variable. -/
abbrev Samples (n q : ℕ) := ℕ → Fin n → Fin q → ℚ

variable {n q : ℕ}

/-- `np.mean(V, 1)`, L79. -/
def mean (S : Samples n q) (t : ℕ) (v : Fin q) : ℚ := (∑ k, S t k v) / n

/-- The argument of the root in `np.std(V, 1)`, L79. -/
def var (S : Samples n q) (t : ℕ) (v : Fin q) : ℚ := (∑ k, (S t k v - mean S t v) ^ 2) / n

/-- `V_norm`, L79. -/
def norm (sq : ℚ → ℚ) (S : Samples n q) (t : ℕ) (k : Fin n) (v : Fin q) : ℚ :=
  (S t k v - mean S t v) / (sq (var S t v) + 1 / 1000000)

/-- The row of scenario `k` in `X`, restricted to the first `i + 1` steps, L82, L113-118: variables one after the other. -/
def obs (sq : ℚ → ℚ) (S : Samples n q) (i : ℕ) (k : Fin n) : List ℚ :=
  (List.finRange q).flatMap fun v : Fin q => (List.range (i + 1)).map fun t : ℕ => norm sq S t k v

/-- The library routines `scenred` uses. -/
structure Lib (n : ℕ) where
  sq : ℚ → ℚ
  metric : List ℚ → List ℚ → ℚ
  argmin : (Fin n → ℚ) → Fin n
  argsort0 : (Fin n → ℚ) → Fin n

/-- Arguments of `scenred`, L18, put together with the distances `get_dist(X, metric)`, L13-15, L84, L120. -/
def cfg (l : Lib n) (T : ℕ) (nodes : ℕ → ℕ) (tol : ℚ) (S : Samples n q) : Cfg n where
  T := T
  nodes := nodes
  tol := tol
  dist i r k := l.metric (obs l.sq S i r) (obs l.sq S i k)
  argmin := l.argmin
  argsort0 := l.argsort0

/-- The tree `scenred` returns for an array of scenarios, L18-195. -/
def tree (l : Lib n) (T : ℕ) (nodes : ℕ → ℕ) (tol : ℚ) (S : Samples n q) : Except PyErr (List (Node (Fin q → ℚ))) :=
  network (cfg l T nodes tol S) S

end PyF.ScenUnits
