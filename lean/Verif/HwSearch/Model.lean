import Verif.Tune.Model
import Mathlib.Logic.Function.Iterate

/-!
`HoltWinters.rand_search`, pyforecaster/forecasting_models/holtwinters.py L249-275, with numpy's global generator.

Simplifications: the error of a candidate (L262-264, states set anew, `beta` 1e-3, first tenth of the rows left out) is a function of the three parameters, `none` is
NaN; the states left behind are not modelled.
-/

namespace PyF.HwSearch

open PyF PyF.Tune

/-- The generator: `np.random.seed` and one number of `np.random.rand`. -/
structure Gen (G : Type) where
  seed : ℕ → G
  uniform : G → ℚ × G

variable {G : Type}

/-- The generator after `i` numbers. -/
def after (gen : Gen G) (g : G) (i : ℕ) : G := (fun s => (gen.uniform s).2)^[i] g

/-- The `i`-th number. -/
def number (gen : Gen G) (g : G) (i : ℕ) : ℚ := (gen.uniform (after gen g i)).1

/-- `np.random.rand(n, 3)`, L253: filled row by row. -/
def testPars (gen : Gen G) (g : G) (n : ℕ) : List (ℚ × ℚ × ℚ) :=
  (List.range n).map (fun i => (number gen g (3 * i), number gen g (3 * i + 1), number gen g (3 * i + 2)))

/-- `rand_search`, L250-269: `alpha`, `gamma_1`, `gamma_2` and the generator afterwards; `g` is the generator before. -/
def randSearch (gen : Gen G) (err : ℚ × ℚ × ℚ → Score) (budget : ℕ) (_g : G) : Except PyErr ((ℚ × ℚ × ℚ) × G) :=
  match argmin ((testPars gen (gen.seed 0) budget).map err) with
  | .error e => .error e
  | .ok b => .ok ((testPars gen (gen.seed 0) budget).getD b (0, 0, 0), after gen (gen.seed 0) (3 * budget))

end PyF.HwSearch
