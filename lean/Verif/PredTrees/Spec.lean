import Verif.PredTrees.Model

/-! What trees with observations, numbers of nodes and workers are expected to be. -/

namespace PyF.PredTrees.Spec
open PyF ScenGen Scenred

variable {I K : Type}

/-- The tree with everything the same except that the nodes of time `t` are raised by the `t`-th number of a list. -/
def Raised [Add K] (v : List K) (N M : Tree K) : Prop :=
  M.length = N.length ∧ ∀ (k : ℕ) (x y : Node (WithBot K)), N[k]? = some x → M[k]? = some y →
    y.t = x.t ∧ y.p = x.p ∧ y.parent = x.parent ∧ ∀ s, v[x.t]? = some s → y.v = x.v + (s : WithBot K)

/-- The learning rate of an object without one, on `n` scenarios. -/
def freshRate (n : ℕ) : ℚ := max (1 / (n : ℚ)) (1 / 10)

/-- The observation of row `i` with online reduction: 0 if none is given, otherwise by position. -/
def onlineRoot [Zero K] (i : ℕ) : InitObs I K → Option K
  | .absent => some 0
  | .scalar c => if i = 0 then some c else none
  | .values l => l[i]?
  | .series l => (l[i]?).map (·.2)

/-- The observation of row `i` with time stamp `s` and prediction `p` without online reduction: the first prediction if none is given;
the value with the same label for a series. -/
def offlineRoot [DecidableEq I] (i : ℕ) (s : I) (p : List K) : InitObs I K → Option K
  | .absent => p.head?
  | .scalar c => some c
  | .values l => l[i]?
  | .series l => ((l.filter (fun q => decide (q.1 = s))).head?).map (·.2)

/-- How many observations are given, if it is their number that counts. -/
def given : InitObs I K → Option ℕ
  | .absent => none
  | .scalar _ => some 1
  | .values l => some l.length
  | .series l => some l.length

/-- Observations that can be attached to `n` rows by label or position. -/
def Attachable (n : ℕ) : InitObs I K → Prop
  | .absent => True
  | .scalar _ => True
  | .values l => l.length = n
  | .series l => (l.map (·.1)).Nodup

/-- The numbers of nodes a tree is built with from a list of them, for `n` scenarios. -/
def used (n : ℕ) (ns : List ℕ) : List ℕ := if ns.length + 1 = n then 1 :: ns else 1 :: ns.tail

end PyF.PredTrees.Spec
