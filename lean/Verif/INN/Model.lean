import Verif.Common
import Mathlib.Analysis.SpecialFunctions.Log.Basic
import Mathlib.Analysis.SpecialFunctions.Exp
import Mathlib.Analysis.Complex.Trigonometric
import Mathlib.Algebra.BigOperators.Fin
import Mathlib.Algebra.BigOperators.Intervals

/-!
Causal invertible networks: pyforecaster/forecasting_models/neural_models/layers.py L38-129, L175-278 and INN.py L52-110, L170-224.

Simplifications: exact real arithmetic; a row of a batch is a function on indices below the number of features (rows are treated independently by the code);
products with boolean masks are case distinctions; the triangular solver is forward substitution; layer normalisation is off (never switched on in INN.py).
-/

namespace PyF.INN

open PyF

noncomputable section

/-- `1e-12`. -/
def eps : ℝ := 1 / 10 ^ 12

/-- `linloglin` with `k = 10`, layers.py L44-45: slope and intercept. -/
def slope : ℝ := 1 / 11
def icpt : ℝ := Real.log 11 - slope * 10

/-- `linloglin`, layers.py L38-51. -/
def linloglin (x : ℝ) : ℝ :=
  if x < -10 then slope * x - icpt
  else if x < 0 then -Real.log (max (-x) eps + 1)
  else if x < 10 then Real.log (max x eps + 1)
  else slope * x + icpt

/-- `linloglin_inverse`, layers.py L56-80. -/
def linloglinInv (y : ℝ) : ℝ :=
  if y ≤ slope * (-10) - icpt then (y + icpt) / slope
  else if slope * 10 + icpt ≤ y then (y - icpt) / slope
  else if y < 0 then 1 - Real.exp (-y)
  else Real.exp y - 1

/-- `safe_exp`, layers.py L128-129. -/
def safeExp (x : ℝ) : ℝ := Real.exp (min (max x (-12)) 12)

/-- `invcondiff` with `a = c = 1`, layers.py L83-102. -/
def invcondiff (x : ℝ) : ℝ :=
  if x < -1 then -Real.log (max (-x) eps) - 1
  else if 1 < x then Real.log (max x eps) + 1
  else x

/-- `invcondiff_inverse` with `a = c = 1`, layers.py L106-125. -/
def invcondiffInv (y : ℝ) : ℝ :=
  if 1 < y then safeExp (y - 1)
  else if y < -1 then -safeExp (-(y + 1))
  else y

/-- `nn.leaky_relu`. -/
def leakyRelu (slope x : ℝ) : ℝ := if 0 ≤ x then x else slope * x

/-- Its inverse, layers.py L244. -/
def leakyReluInv (slope y : ℝ) : ℝ := if 0 ≤ y then y else y / slope

/-- `nn.softplus`. -/
def softplus (x : ℝ) : ℝ := Real.log (1 + Real.exp x)

/-- `inverse_softplus(jnp.maximum(1e-6, y))`, layers.py L246, L255-265. -/
def softplusInv (y : ℝ) : ℝ := if 20 < max (1 / 10 ^ 6) y then max (1 / 10 ^ 6) y else Real.log (Real.exp (max (1 / 10 ^ 6) y) - 1)

/-- The activations a layer can be given; a function called `identity` is inverted like `invcondiff`, layers.py L247. -/
inductive Act
  | leakyRelu (s : ℝ) | softplus | invcondiff | identity | linloglin | other

/-- The activation. -/
def Act.apply : Act → ℝ → ℝ
  | .leakyRelu s => INN.leakyRelu s
  | .softplus => INN.softplus
  | .invcondiff => INN.invcondiff
  | .identity => id
  | .linloglin => INN.linloglin
  | .other => id

/-- `invert_activation`, layers.py L241-252; `slope` is the `negative_slope` of the layer. -/
def Act.invert (slope : ℝ) : Act → Except PyErr (ℝ → ℝ)
  | .leakyRelu _ => .ok (leakyReluInv slope)
  | .softplus => .ok softplusInv
  | .invcondiff => .ok invcondiffInv
  | .identity => .ok invcondiffInv
  | .linloglin => .ok linloglinInv
  | .other => .error .notImplementedError

/-- Parameters of one layer: the entries below the diagonal row by row, and the bias. -/
structure Layer where
  vec : List ℝ
  bias : ℕ → ℝ

/-- `vector_to_lower_triangular`, layers.py L268-278. -/
def lowerTri (vec : List ℝ) (i j : ℕ) : ℝ := if j < i then vec.getD (i * (i - 1) / 2 + j) 0 else 0

/-- The matrix of a layer with `m` features, layers.py L212. -/
def kernel (s : ℝ) (m : ℕ) (vec : List ℝ) (i j : ℕ) : ℝ := Real.tanh (lowerTri vec i j) * s / m + if i = j then 1 else 0

/-- `kernel @ inputs + bias`, layers.py L213-214. -/
def affine (s : ℝ) (m : ℕ) (l : Layer) (x : ℕ → ℝ) (i : ℕ) : ℝ := ∑ j ∈ Finset.range m, kernel s m l.vec i j * x j + l.bias i

/-- `solve_triangular(kernel, y, lower=True)`: forward substitution. -/
def solve (k : ℕ → ℕ → ℝ) (y : ℕ → ℝ) (i : ℕ) : ℝ := (y i - ∑ j : Fin i, k i j * solve k y j) / k i i
termination_by i

/-- The affine part of `invert`, layers.py L225-229. -/
def affineInv (s : ℝ) (m : ℕ) (l : Layer) (y : ℕ → ℝ) : ℕ → ℝ := solve (kernel s m l.vec) (fun i => y i - l.bias i)

/-- `CausalInvertibleModule.__call__` and `predict`, INN.py L60-63, L70-73: the last layer has no activation. -/
def embed (s : ℝ) (m : ℕ) : List Layer → (ℕ → ℝ) → ℕ → ℝ
  | [], x => x
  | [l], x => affine s m l x
  | l :: l' :: ls, x => embed s m (l' :: ls) (fun i => linloglin (affine s m l x i))

/-- `CausalInvertibleModule.invert`, INN.py L65-68. -/
def invert (s : ℝ) (m : ℕ) : List Layer → (ℕ → ℝ) → ℕ → ℝ
  | [], y => y
  | [l], y => affineInv s m l y
  | l :: l' :: ls, y => affineInv s m l (fun i => linloglinInv (invert s m (l' :: ls) y i))

/-- `jnp.hstack([past[:, n:], new])` for a past of length `m` and `n` new values, INN.py L29, L46, L200. -/
def shiftIn (m n : ℕ) (past new : ℕ → ℝ) (i : ℕ) : ℝ := if i < m - n then past (i + n) else new (i - (m - n))

/-- The last `n` of `m` entries. -/
def lastN (m n : ℕ) (v : ℕ → ℝ) (i : ℕ) : ℝ := v (m - n + i)

/-- The target embedding of the quasi end-to-end loss, INN.py L29-30. -/
def targetEmbedding (s : ℝ) (m n : ℕ) (ls : List Layer) (x y : ℕ → ℝ) : ℕ → ℝ := lastN m n (embed s m ls (shiftIn m n x y))

/-- The forecast from an embedded forecast, `predict`, INN.py L198-201 (and the full end-to-end loss, L45-46). -/
def decodeForecast (s : ℝ) (m n : ℕ) (ls : List Layer) (x e : ℕ → ℝ) : ℕ → ℝ := lastN m n (invert s m ls (shiftIn m n (embed s m ls x) e))

end

end PyF.INN
