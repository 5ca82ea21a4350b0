import Verif.TreeBuild.Model
import Mathlib.Analysis.SpecialFunctions.Log.Base
import Mathlib.Data.Nat.Log

/-!
The numbers of nodes `ScenarioTree.gen_init_tree` uses when none are passed with the call,
pyforecaster/tree_builders.py L68-85.

Simplifications: `int(np.log(n)/np.log(2))` is the exact integer logarithm. The floating point values of
`np.floor(np.logspace(...))` are a parameter (`Prog`); `exactProg` are the exact ones.
-/

namespace PyF.TreeInit
open PyF TreeBuild

/-- `geometric_steps`, L69: the powers of two from 4 on, for `n` scenarios. -/
def stepsOf (n : ℕ) : List ℕ := ((List.range (Nat.log 2 n)).map (fun t => 2 ^ t)).drop 2

/-- Values of `geometric_progression`, L70, by number of geometric steps, number of time steps and position. -/
abbrev Prog := ℕ → ℕ → ℕ → ℕ

/-- The exact values of `np.floor(np.logspace(-1, log10(m), T))`, L70. -/
noncomputable def exactProg : Prog := fun m T i =>
  ⌊(10 : ℝ) ^ (-1 + (Real.logb 10 m + 1) * ((i : ℝ) / ((T : ℝ) - 1)))⌋₊

/-- `np.max(g) - g[::-1]`, L71. -/
def reversed (g : List ℕ) : List ℕ := g.reverse.map (fun x => g.foldr max 0 - x)

/-- One entry of `geometric_nodes`, L72; every index is out of bounds in an empty array. -/
def pick (steps : List ℕ) (r : ℕ) : Except PyErr ℕ :=
  match steps[min r (steps.length - 1)]? with
  | none => .error .indexError
  | some x => .ok x

/-- `geometric_nodes`, L69-72. -/
def geometricNodes (prog : Prog) (n T : ℕ) : Except PyErr (List ℕ) :=
  (reversed ((List.range T).map (prog (stepsOf n).length T))).mapM (pick (stepsOf n))

/-- L68-75: the numbers passed with the call, else those of the object, else the geometric ones, which are computed in any
case if none are passed. -/
def chosen (prog : Prog) (n T : ℕ) (call own : Option (List ℕ)) : Except PyErr (List ℕ) :=
  match call with
  | some ns => .ok ns
  | none =>
    match geometricNodes prog n T with
    | .error e => .error e
    | .ok g => .ok (own.getD g)

/-- L67-85: the effective numbers of nodes for `n` scenarios of `T` steps. -/
def initNodes (prog : Prog) (n T : ℕ) (call own : Option (List ℕ)) : Except PyErr (List ℕ) :=
  match chosen prog n T call own with
  | .error e => .error e
  | .ok ns =>
    match effectiveNodes n ns with
    | .error e => .error e
    | .ok r => .ok r.1

end PyF.TreeInit
