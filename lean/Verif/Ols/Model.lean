import Verif.Common
import Mathlib.Algebra.BigOperators.Fin
import Mathlib.Algebra.Order.BigOperators.Ring.Finset
import Mathlib.Analysis.SpecialFunctions.Pow.Real

/-!
Model of `LinearForecaster.fit` and of the values `LinearForecaster.predict` computes (`pyforecaster/forecaster.py` L333-349) without formatter and without
categorical columns: a linear model with unpenalised intercept for all target columns at once, either least squares (`LinearRegression()`) or ridge regression whose
penalty is picked by leave-one-out errors from `10 ** np.linspace(-2, 8, 9)` (`RidgeCV`).

Simplified: the numerical solvers of scikit-learn are a parameter (`Solver`), of which the theorems assume that it returns a minimiser of its loss on the rows at hand;
the leave-one-out errors that `RidgeCV` takes from a matrix decomposition are those of refits without the row. Numbers are real.
-/

namespace PyF.Ols

/-- One row of the data: features and targets. -/
abbrev Row (d m : ℕ) := (Fin d → ℝ) × (Fin m → ℝ)

/-- `coef_` and `intercept_` of the linear models of scikit-learn, by target. -/
structure Coef (d m : ℕ) where
  w : Fin m → Fin d → ℝ
  b : Fin m → ℝ

/-- `self.m.predict(x)`, forecaster.py L347, for one row. -/
noncomputable def pred {d m : ℕ} (c : Coef d m) (x : Fin d → ℝ) (j : Fin m) : ℝ := c.b j + ∑ k, c.w j k * x k

/-- What is minimised by `LinearRegression().fit` (penalty 0) and by ridge regression, L337, L339: squared errors plus penalised squared weights. -/
noncomputable def loss {d m : ℕ} (α : ℝ) (rows : List (Row d m)) (c : Coef d m) : ℝ :=
  (rows.map fun r : Row d m => ∑ j, (r.2 j - pred c r.1 j) ^ 2).sum + α * ∑ j, ∑ k, c.w j k ^ 2

/-- The numerical routine that fits the model of a given penalty to rows. -/
abbrev Solver (d m : ℕ) := ℝ → List (Row d m) → Coef d m

/-- `10 ** np.linspace(-2, 8, 9)`, L339. -/
noncomputable def grid : List ℝ := (List.range 9).map fun i : ℕ => (10 : ℝ) ^ (-2 + 10 / 8 * (i : ℝ))

/-- Squared leave-one-out errors of a penalty, over rows and targets, L339 (`RidgeCV` with its default `cv` and `scoring`). -/
noncomputable def looErr {d m : ℕ} (S : Solver d m) (rows : List (Row d m)) (α : ℝ) : ℝ :=
  ((List.range rows.length).map fun i : ℕ =>
    (rows[i]?).elim 0 fun r : Row d m => ∑ j, (r.2 j - pred (S α (rows.eraseIdx i)) r.1 j) ^ 2).sum

/-- The first penalty of smallest error: a later one replaces the best so far only if it is strictly better. -/
noncomputable def firstBest (f : ℝ → ℝ) (a : ℝ) : List ℝ → ℝ
  | [] => a
  | b :: bs => if f b < f a then firstBest f b bs else firstBest f a bs

/-- `RidgeCV(alphas=grid).fit`, L339: the penalty it settles on. -/
noncomputable def ridgeAlpha {d m : ℕ} (S : Solver d m) (rows : List (Row d m)) : ℝ :=
  match grid with
  | [] => 0
  | a :: as => firstBest (looErr S rows) a as

/-- Penalty of the fitted model by `kind`, L336-341. -/
noncomputable def penalty {d m : ℕ} (S : Solver d m) (kind : String) (rows : List (Row d m)) : Except PyErr ℝ :=
  if kind = "linear" then .ok 0
  else if kind = "ridge" then .ok (ridgeAlpha S rows)
  else .error .valueError

/-- The rows the model is fitted on, `train_val_split` L313-321: without `val_ratio` all of them, else those before the last `int(n * val_ratio)`. -/
noncomputable def trainRows {d m : ℕ} (valRatio : Option ℝ) (rows : List (Row d m)) : List (Row d m) :=
  match valRatio with
  | none => rows
  | some r => rows.take (rows.length - (⌊(rows.length : ℝ) * r⌋).toNat)

/-- `LinearForecaster.fit`, L334-343: the fitted model `self.m`. -/
noncomputable def fit {d m : ℕ} (S : Solver d m) (kind : String) (valRatio : Option ℝ) (rows : List (Row d m)) : Except PyErr (Coef d m) :=
  (penalty S kind (trainRows valRatio rows)).map fun α => S α (trainRows valRatio rows)

end PyF.Ols
