import Verif.Common
import Verif.Boost.Model
import Verif.FmtNorm.Model
import Mathlib.Analysis.Real.Sqrt
import Mathlib.Analysis.SpecialFunctions.Trigonometric.Basic
import Mathlib.LinearAlgebra.Matrix.Notation
import Mathlib.Data.Matrix.Basic
import Mathlib.Data.Matrix.Diagonal

/-!
Model of the random Fourier feature regressions, `pyforecaster/forecasting_models/random_fourier_features.py` L136-399.

Numbers are real. Random draws are parameters numbered by a counter kept in the object. The regression (`reg_fun()`) is a parameter: a function from
features and targets to a predictor. Frames are lists of rows of a stated width.
-/

namespace PyF.Rff
open PyF

/-- A matrix with its shape. -/
structure Mat where
  rows : Nat
  cols : Nat
  val : Nat → Nat → ℝ

/-- Random draws: `self.mat(dim_in)`, L136-184, and `np.random.uniform(0, 2π, size)`, L250; the first argument counts the draws. -/
structure Env where
  gen : Nat → Nat → Nat → Nat → ℝ
  unif : Nat → Nat → ℝ
  learn : List (List ℝ) → List (List ℝ) → List ℝ → List ℝ

/-- A frame: number of columns and rows. -/
structure X where
  p : Nat
  rows : List (List ℝ)

/-- State of a `RandomFFRegressor`, L207-210 and L273-275: `dim`, `W`, `b`, the fitted regression, the number of draws so far. -/
structure Obj where
  dim : Nat
  W : Option Mat
  b : Option (List ℝ)
  reg : Option (List ℝ → List ℝ)
  draws : Nat

/-- `set_weight(dim_in)` for a number, L231-250. -/
def setWeight (E : Env) (o : Obj) (dimIn : Nat) : Obj :=
  let o1 : Obj := match o.W with
    | some _ => o
    | none => { o with W := some ⟨dimIn, o.dim, E.gen o.draws dimIn⟩, draws := o.draws + 1 }
  match o1.b with
  | some _ => o1
  | none =>
    let c := match o1.W with
      | some w => w.cols
      | none => 0
    { o1 with b := some ((List.range c).map (fun (i : Nat) => E.unif (o1.draws + i) i)), draws := o1.draws + c }

/-- Width of `x @ W + b` by the broadcasting rule: equal lengths, or one of the two is 1. -/
def outWidth (c l : Nat) : Option Nat :=
  if l = c then some c else if l = 1 then some c else if c = 1 then some l else none

/-- One row of `conv`, L229: `cos(x @ W + b)`, an axis of length 1 being repeated. -/
noncomputable def convRow (w : Mat) (b : List ℝ) (m : Nat) (row : List ℝ) : List ℝ :=
  (List.range m).map (fun (c : Nat) =>
    Real.cos (((List.range w.rows).map (fun (i : Nat) => row.getD i 0 * w.val i (if w.cols = 1 then 0 else c))).sum + b.getD (if b.length = 1 then 0 else c) 0))

/-- `conv(x)`, L212-229: the widths have to fit. -/
noncomputable def conv (o : Obj) (x : X) : Except PyErr (List (List ℝ)) :=
  match o.W, o.b with
  | some w, some b =>
    if x.p ≠ w.rows then .error .valueError
    else match outWidth w.cols b.length with
      | none => .error .valueError
      | some m => .ok (x.rows.map (convRow w b m))
  | _, _ => .error .typeError

/-- `RandomFFRegressor.fit`, L278-293. (Attribute `target_cols`, a label, is left out.) -/
noncomputable def fit (E : Env) (o : Obj) (x : X) (y : List (List ℝ)) : Obj × Except PyErr Unit :=
  let o1 := setWeight E o x.p
  match conv o1 x with
  | .error e => (o1, .error e)
  | .ok f => ({ o1 with reg := some (E.learn f y) }, .ok ())

/-- `RandomFFRegressor.predict`, L295-307; an unfitted regression raises `NotFittedError`, a `ValueError`. -/
noncomputable def predict (E : Env) (o : Obj) (x : X) : Obj × Except PyErr (List (List ℝ)) :=
  let o1 := setWeight E o x.p
  match conv o1 x with
  | .error e => (o1, .error e)
  | .ok f =>
    match o1.reg with
    | none => (o1, .error .valueError)
    | some g => (o1, .ok (f.map g))

/-- `RandomFFRegressor.score`, L309-323, up to the value of the score: state afterwards and the predictions that are scored. -/
noncomputable def score (E : Env) (o : Obj) (x : X) : Obj × Except PyErr (List (List ℝ)) :=
  let o1 := setWeight E o x.p
  match conv o1 x, o1.reg with
  | .error e, _ => (o1, .error e)
  | .ok _, none => (o1, .error .valueError)
  | .ok f, some g => (o1, .ok (f.map g))

/-- A call. -/
inductive Op
  | fit (x : X) (y : List (List ℝ))
  | predict (x : X)
  | score (x : X)

/-- State after a call, whether it fails or not. -/
noncomputable def Op.after (E : Env) (o : Obj) : Op → Obj
  | .fit x y => (Rff.fit E o x y).1
  | .predict x => (Rff.predict E o x).1
  | .score x => (Rff.score E o x).1

/-- Number of columns of the frame passed in a call. -/
def Op.width : Op → Nat
  | .fit x _ => x.p
  | .predict x => x.p
  | .score x => x.p

/-- State after several calls. -/
noncomputable def afterAll (E : Env) (o : Obj) (ops : List Op) : Obj := ops.foldl (Op.after E) o

/-! The scaler. -/

/-- Mean of a column. -/
noncomputable def mean (l : List ℝ) : ℝ := l.sum / l.length

/-- Variance of a column. -/
noncomputable def var (l : List ℝ) : ℝ := (l.map (fun z => (z - mean l) ^ 2)).sum / l.length

/-- Scale of `StandardScaler`: the standard deviation, 1 for a constant column. -/
noncomputable def sd (l : List ℝ) : ℝ := if var l = 0 then 1 else Real.sqrt (var l)

/-- A value scaled with the mean and scale of a column. -/
noncomputable def scale (l : List ℝ) (z : ℝ) : ℝ := (z - mean l) / sd l

/-- One feature column as the regression is trained on it, L342-345 and L375-377: the scaler is fitted on all the rows `tr ++ val` and the split comes after. -/
noncomputable def trainColumn (tr val : List ℝ) : List ℝ := tr.map (scale (tr ++ val))

/-! Denormalisation. -/

/-- A column label. -/
inductive Label
  | int (i : Nat)
  | str (s : Names.Str)

/-- `pd.DataFrame(self.scaler.transform(x), index=x.index)`, L350 and L388: scaled values, columns labelled 0, 1, …. `g i` scales column `i`. -/
def scaledFrame (g : Nat → ℚ → ℚ) (x : Normalize.Frame) : List (Label × List ℚ) :=
  x.zipIdx.map (fun (c : (Names.Str × List ℚ) × Nat) => (Label.int c.2, c.1.2.map (g c.2)))

/-- The columns that can be reached by a name. -/
def named (f : List (Label × List ℚ)) : Normalize.Frame :=
  f.filterMap (fun c => match c.1 with
    | .int _ => none
    | .str s => some (s, c.2))

/-- `self.anti_transform(x, y_hat)` in `predict`, L352 and L393, after `x` has been overwritten by the scaled frame. -/
def antiTransform {N : Type} (s : Normalize.Setting N) (names : List Names.Str) (ms : List FmtNorm.Meta) (g : Nat → ℚ → ℚ) (x yHat : Normalize.Frame) :
    Except PyErr Normalize.Frame :=
  FmtNorm.denormalizeBoth s names ms (named (scaledFrame g x)) yHat

/-! Orthogonal random features. -/

section
variable {n : Nat}

/-- One block of `get_orf_matrix`, L167-169: `std * diag(s) @ Q`. -/
noncomputable def orfBlock (std : ℝ) (s : Fin n → ℝ) (Q : Matrix (Fin n) (Fin n) ℝ) : Matrix (Fin n) (Fin n) ℝ := std • (Matrix.diagonal s * Q)

/-- Columns of a block. -/
def columns (V : Matrix (Fin n) (Fin n) ℝ) : List (Fin n → ℝ) := (List.finRange n).map (fun j i => V i j)

/-- `get_orf_matrix(dim_in, dim_out, std)`, L151-173, as the list of its columns: `dim_out // dim_in + 1` blocks side by side, the first `dim_out` columns kept.
`s k` and `Q k` are the draws of round `k`. -/
noncomputable def orf (std : ℝ) (s : Nat → Fin n → ℝ) (Q : Nat → Matrix (Fin n) (Fin n) ℝ) (dimOut : Nat) : Except PyErr (List (Fin n → ℝ)) :=
  if n = 0 then .error .zeroDivisionError
  else .ok (((List.range (dimOut / n + 1)).flatMap (fun (k : Nat) => columns (orfBlock std (s k) (Q k)))).take dimOut)

end

/-- Kind of random matrix. -/
inductive Kind
  | rff
  | orf
deriving DecidableEq

/-- `get_matrix_generator(rand_type, …)`, L176-184. -/
def generator (randType : String) : Except PyErr Kind :=
  if randType = "rff" then .ok .rff else if randType = "orf" then .ok .orf else .error .runtimeError

end PyF.Rff
