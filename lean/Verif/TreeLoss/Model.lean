import Mathlib.Data.Finset.Lattice.Fold
import Mathlib.Algebra.BigOperators.Group.Finset.Basic
import Mathlib.Algebra.Order.Field.Basic
import Mathlib.Data.Fintype.BigOperators

/-!
Model of the loss of scenario trees and of its gradient as `DiffTree` uses it (`pyforecaster/tree_builders.py` L119-133, L242-243).

A tree with `n` nodes and `L` paths of `T` steps is the table `idx t p` of the node of path `p` at step `t` (`retrieve_scenarios_indexes`); `v` holds the values of
the nodes, `scens t k` step `t` of scenario `k`. Numbers are of any ordered field (jax computes in 32 bit). The loop around it is `diffTree` of `Verif.TreeBuild`.
-/

namespace PyF.TreeLoss

variable {K : Type} [Field K] [LinearOrder K] {n L N T : Nat}

/-- `compute_distances(tree_scens, scen)`, L119-123 (`vmap` over the columns of `tree_scens`), with `tree_scens = vstack([tree_vals[i] for i in tree_idxs.T]).T` (L129): the mean
squared difference of scenario `k` and path `p`. -/
def dist (idx : Fin T → Fin L → Fin n) (scens : Fin T → Fin N → K) (v : Fin n → K) (k : Fin N) (p : Fin L) : K :=
  (∑ t, (scens t k - v (idx t p)) ^ 2) / T

/-- `jnp.min(dists)`, L132. -/
def nearest [NeZero L] (idx : Fin T → Fin L → Fin n) (scens : Fin T → Fin N → K) (v : Fin n → K) (k : Fin N) : K :=
  Finset.univ.inf' Finset.univ_nonempty (dist idx scens v k)

/-- `metric_loss`, L127-133. -/
def metricLoss [NeZero L] (idx : Fin T → Fin L → Fin n) (scens : Fin T → Fin N → K) (v : Fin n → K) : K :=
  ∑ k, nearest idx scens v k

/-- The paths at which the minimum of scenario `k` is attained. -/
def ties [NeZero L] (idx : Fin T → Fin L → Fin n) (scens : Fin T → Fin N → K) (v : Fin n → K) (k : Fin N) : Finset (Fin L) :=
  Finset.univ.filter (fun p => dist idx scens v k p = nearest idx scens v k)

/-- The derivative of `jnp.min` by its arguments as jax defines it: shared equally by the places where the minimum is attained. -/
def weight [NeZero L] (idx : Fin T → Fin L → Fin n) (scens : Fin T → Fin N → K) (v : Fin n → K) (k : Fin N) (p : Fin L) : K :=
  if p ∈ ties idx scens v k then 1 / ((ties idx scens v k).card : K) else 0

/-- `grad(partial(self.metric_loss, ...))(tree_vals)`, L242, by the chain rule. -/
def gradLoss [NeZero L] (idx : Fin T → Fin L → Fin n) (scens : Fin T → Fin N → K) (v : Fin n → K) (i : Fin n) : K :=
  ∑ k, ∑ p, weight idx scens v k p * ∑ t, if idx t p = i then 2 * (v i - scens t k) / T else 0

end PyF.TreeLoss
