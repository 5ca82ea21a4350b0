import Verif.Common
import Mathlib.Algebra.Order.Field.Rat
import Mathlib.Algebra.BigOperators.Fin
import Mathlib.Data.Fintype.BigOperators

/-!
Model of `scenred`, `_get_network` and `get_network` (`pyforecaster/scenred.py` L18-195, L275-354). Scenarios are the numbers
below `n`. The distances between normalised scenarios (`pdist`, L74-84 and L115-120) are an arbitrary function of the
number of steps taken into account; `np.argmin` and the first row of `np.argsort` are arbitrary choices among the minima.
Probabilities and distances are exact rationals. The match matrix `Me` (L179-186) and the size limit L188 are not modelled.
-/

namespace PyF.Scenred
open PyF

/-- `infty`, L88. -/
def infty : ℚ := 1000000000000

/-- Arguments of `scenred`, L18, and the numerical routines it uses. `dist i r c`: distance of scenarios `r` and `c` over the
first `i + 1` steps. -/
structure Cfg (n : Nat) where
  T : Nat
  nodes : Nat → Nat
  tol : ℚ
  dist : Nat → Fin n → Fin n → ℚ
  argmin : (Fin n → ℚ) → Fin n
  argsort0 : (Fin n → ℚ) → Fin n

/-- State of the main loop: row `i` of `J` and `P`, the matrices `L`, `D` and the array `S`. -/
structure St (n : Nat) (V : Type) where
  alive : Fin n → Bool
  P : Fin n → ℚ
  L : Fin n → Fin n → Bool
  D : Fin n → Fin n → ℚ
  S : Nat → Fin n → V

variable {n : Nat} {V : Type}

/-- `np.max(D.ravel())`, L87 (distances are not negative). -/
def maxDist (c : Cfg n) : ℚ :=
  ((List.finRange n).flatMap (fun (r : Fin n) => (List.finRange n).map (fun (k : Fin n) => c.dist (c.T - 1) r k))).foldl max 0

/-- `D` after L87. -/
def initD (c : Cfg n) (r k : Fin n) : ℚ := c.dist (c.T - 1) r k + if r = k then 1 + maxDist c else 0

/-- The test of L91: all requested numbers of nodes are 1. -/
def isDefault (c : Cfg n) : Bool := (List.range c.T).all (fun (i : Nat) => c.nodes i == 1)

/-- The tolerance vector, L91-96. -/
def tolAt (c : Cfg n) (i : Nat) : ℚ :=
  if isDefault c then (if i = 0 then infty else c.tol / (3 / 2) ^ (i + 2)) else infty

/-- The numbers of nodes after L98-101. -/
def nodesAt (c : Cfg n) (i : Nat) : Nat := if i = 0 then 1 else c.nodes i

/-- L103-108. -/
def initSt (c : Cfg n) (S0 : Nat → Fin n → V) : St n V :=
  { alive := fun _ => true, P := fun _ => 1 / n, L := fun _ _ => false, D := initD c, S := S0 }

/-- The survivors as a list, in index order. -/
def survivors (s : St n V) : List (Fin n) := (List.finRange n).filter s.alive

/-- `delta_max`, L117-122: smallest column sum of the distances of the survivors over the first `i + 1` steps, the diagonal
set to zero. (`np.min` of no column is not reached: there is always a survivor.) -/
def deltaMax (c : Cfg n) (i : Nat) (s : St n V) : ℚ :=
  (((survivors s).map (fun (k : Fin n) => ((survivors s).map (fun (r : Fin n) => if r = k then 0 else c.dist i r k)).sum)).min?).getD 0

/-- Number of branches, L146. -/
def branches (s : St n V) : Nat := (List.finRange n).countP (fun k => 0 < s.P k)

/-- L125-126. -/
def maskD (alive : Fin n → Bool) (D : Fin n → Fin n → ℚ) (r k : Fin n) : ℚ :=
  if alive r = false ∨ alive k = false then infty else D r k

/-- `z`, L130-136. -/
def costs (c : Cfg n) (s : St n V) (k : Fin n) : ℚ :=
  if s.alive k = false then infty
  else maskD s.alive s.D (c.argsort0 (fun r => maskD s.alive s.D r k)) k * s.P k

/-- `idx_rem`, L137. -/
def idxRem (c : Cfg n) (s : St n V) : Fin n := c.argmin (costs c s)

/-- `idx_aug`, L140. -/
def idxAug (c : Cfg n) (s : St n V) : Fin n := c.argsort0 (fun r => maskD s.alive s.D r (idxRem c s))

/-- L147-150. -/
def mergeL (L : Fin n → Fin n → Bool) (rem aug : Fin n) : Fin n → Fin n → Bool :=
  let L1 : Fin n → Fin n → Bool := fun a b => if a = aug ∧ b = rem then true else L a b
  fun a b => if a = aug ∧ L1 rem b = true then true else L1 a b

/-- L152-159: the removed scenario and all scenarios merged with it before take the values of `aug` up to step `i`. -/
def mergeS (S : Nat → Fin n → V) (L : Fin n → Fin n → Bool) (i : Nat) (rem aug : Fin n) : Nat → Fin n → V :=
  let S1 : Nat → Fin n → V := fun t k => if t ≤ i ∧ k = rem then S t aug else S t k
  fun t k => if t ≤ i ∧ L rem k = true then S1 t aug else S1 t k

/-- One merge, L125-159. -/
def merge (c : Cfg n) (i : Nat) (s : St n V) : St n V :=
  let rem := idxRem c s
  let aug := idxAug c s
  let L' := mergeL s.L rem aug
  { alive := fun k => if k = rem then false else s.alive k
    P := fun k => if k = rem then 0 else if k = aug then s.P rem + s.P aug else s.P k
    L := L'
    D := maskD s.alive s.D
    S := mergeS s.S L' i rem aug }

/-- `delta_p / delta_max`, L164; `none` for NaN and infinity. -/
def ratio (dp dmax : ℚ) : Option ℚ := if dmax = 0 then none else some (dp / dmax)

/-- The loop condition L124; comparisons with NaN are false. -/
def goOn (c : Cfg n) (i : Nat) (rel : Option ℚ) (s : St n V) : Bool :=
  (match rel with | some r => decide (r < tolAt c i) | none => false) && decide (nodesAt c i < branches s)

/-- The while loop of step `i`, L124-164, with a bound on the number of passes (shown sufficient in the theorems). -/
def loop (c : Cfg n) (i : Nat) (dmax : ℚ) : Nat → Option ℚ → ℚ → St n V → St n V
  | 0, _, _, s => s
  | f + 1, rel, dp, s =>
    if goOn c i rel s then
      let dp' := if tolAt c i = infty then dp else dp + costs c s (idxRem c s)
      loop c i dmax f (ratio dp' dmax) dp' (merge c i s)
    else s

/-- Step `i`, L110-172. The next row of `J` and `P` starts as a copy (L168, L171); L172 sets the distance of discarded
scenarios to themselves. -/
def stepAt (c : Cfg n) (i : Nat) (s : St n V) : St n V :=
  let s' := loop c i (deltaMax c i s) n (some 0) 0 s
  if 0 < i then { s' with D := fun r k => if r = k ∧ s'.alive r = false then infty else s'.D r k } else s'

/-- The state after the last `k` steps have been processed, L109. -/
def after (c : Cfg n) (S0 : Nat → Fin n → V) : Nat → St n V
  | 0 => initSt c S0
  | k + 1 => stepAt c (c.T - 1 - k) (after c S0 k)

/-- Row `i` of `J` and `P` on return: the state when step `i` was finished. -/
def row (c : Cfg n) (S0 : Nat → Fin n → V) (i : Nat) : St n V := after c S0 (c.T - i)

/-- The array `S` on return, before the selection of columns. -/
def finalS (c : Cfg n) (S0 : Nat → Fin n → V) : Nat → Fin n → V := (after c S0 c.T).S

/-- The columns kept, L176-177. -/
def columns (c : Cfg n) (S0 : Nat → Fin n → V) : List (Fin n) := survivors (row c S0 (c.T - 1))

/-! ### The network -/

/-- Attributes of a node and its parent, L295-302. -/
structure Node (V : Type) where
  t : Nat
  p : ℚ
  v : V
  parent : Option Nat
deriving DecidableEq

variable [DecidableEq V]

/-- L309-341 for one time and scenario. -/
def addPoint {σ : Type} (P : Nat → σ → ℚ) (S : Nat → σ → V) (t : Nat) (nodes : List (Node V)) (s : σ) : Except PyErr (List (Node V)) :=
  if P t s = 0 then .ok nodes
  else if nodes.any (fun x => x.t == t && decide (x.v = S t s)) then .ok nodes
  else
    match nodes.findIdx? (fun x => x.t == t - 1 && decide (x.v = S (t - 1) s)) with
    | none => .error .valueError
    | some x => .ok (nodes ++ [{ t := t, p := P t s, v := S t s, parent := some x }])

/-- The loop over the scenarios. -/
def addPoints {σ : Type} (P : Nat → σ → ℚ) (S : Nat → σ → V) (t : Nat) : List (Node V) → List σ → Except PyErr (List (Node V))
  | nodes, [] => .ok nodes
  | nodes, s :: ss =>
    match addPoint P S t nodes s with
    | .error e => .error e
    | .ok nodes' => addPoints P S t nodes' ss

/-- The loop over the times `1, …, k`. -/
def addTimes {σ : Type} (P : Nat → σ → ℚ) (S : Nat → σ → V) (cols : List σ) (nodes : List (Node V)) : Nat → Except PyErr (List (Node V))
  | 0 => .ok nodes
  | k + 1 =>
    match addTimes P S cols nodes k with
    | .error e => .error e
    | .ok nodes' => addPoints P S (k + 1) nodes' cols

/-- `_get_network`, L276-345: list of nodes in creation order. -/
def getNetwork {σ : Type} (T : Nat) (P : Nat → σ → ℚ) (S : Nat → σ → V) (cols : List σ) : Except PyErr (List (Node V)) :=
  match cols.filter (fun s => 0 < P 0 s) with
  | [s] => addTimes P S cols [{ t := 0, p := 1, v := S 0 s, parent := none }] (T - 1)
  | _ => .error .assertionError

/-- The network `scenred` returns, L176-189. -/
def network (c : Cfg n) (S0 : Nat → Fin n → V) : Except PyErr (List (Node V)) :=
  getNetwork c.T (fun t s => (row c S0 t).P s) (finalS c S0) (columns c S0)

end PyF.Scenred
