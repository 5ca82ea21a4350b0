import Verif.Ctor.Model

namespace PyF.Ctor

open PyF

/-- Names some class of the chain knows. -/
def known (p : Pred) : List String :=
  p.names ++ scenarioGeneratorNames ++ scenGenNames ++ ["cov_est_method", "conditional_on", "logger", "tree", "nodes_at_step", "savepath", "init", "base_tree", "learning_rate"]

/-- Two objects that differ in `init_pars` at most. -/
def Same (a b : Obj) : Prop := a.attrs = b.attrs ∧ a.gen = b.gen

/-- Two outcomes of a constructor: the same exception, or objects that differ in `init_pars` at most. -/
def SameE (a b : Except PyErr Obj) : Prop :=
  match a, b with
  | .ok x, .ok y => Same x y
  | .error e, .error f => e = f
  | _, _ => False

/-- What is assumed of `np.linspace(1, m, n + 1)` in floating point: it does not decrease, starts at 1 and ends at `m` exactly. -/
structure LinOk (lin : ℕ → ℚ) (m n : ℕ) : Prop where
  mono : ∀ i j, i ≤ j → lin i ≤ lin j
  first : lin 0 = 1
  last : lin n = m

end PyF.Ctor
