import Verif.Qrf.Model

/-!
What a fitted quantile random forest should forecast: step `j` is forecast by its own forest if `j < n_single`, and by the corresponding
output of the global forest otherwise.
-/

namespace PyF.Qrf

open PyF

variable {R P D : Type} [Inhabited R]

/-- The rows used for training. -/
def xTrain (c : Cfg) (x : List R) (y : List (List ℚ)) : List R := (Split.trainValSplit c.valRatio x y).1

/-- The target rows used for training. -/
def yTrain (c : Cfg) (x : List R) (y : List (List ℚ)) : List (List ℚ) := (Split.trainValSplit c.valRatio x y).2.1

/-- The forest of step `j < n_single`: its pruned rows, its target, the sample weights. -/
def own (E : Env R P D) (c : Cfg) (pars : D) (x : List R) (y : List (List ℚ)) (w : Option (List ℚ)) (j : ℕ) : Forest R :=
  E.train pars ((xTrain c x y).map (E.prune j E.period0)) ((yTrain c x y).map (fun r => [r.getD j 0])) w

/-- The global forest: all rows, the targets after the first `n_single`, no weights. -/
def glob (E : Env R P D) (c : Cfg) (parsG : D) (x : List R) (y : List (List ℚ)) : Forest R :=
  E.train parsG (xTrain c x y) ((yTrain c x y).map (fun r => r.drop c.nSingle)) none

/-- The level-`q` forecast of target `j` at the feature row `r`. -/
def level (E : Env R P D) (c : Cfg) (pars parsG : D) (x : List R) (y : List (List ℚ)) (w : Option (List ℚ)) (r : R) (j : ℕ) (q : ℚ) : ℚ :=
  if j < c.nSingle then (own E c pars x y w j).quant (E.prune j E.period0 r) 0 q else (glob E c parsG x y).quant r (j - c.nSingle) q

/-- The point forecast of target `j` at the feature row `r`. -/
def centre (E : Env R P D) (c : Cfg) (pars parsG : D) (x : List R) (y : List (List ℚ)) (w : Option (List ℚ)) (r : R) (j : ℕ) : ℚ :=
  if j < c.nSingle then (own E c pars x y w j).mean (E.prune j E.period0 r) 0 else (glob E c parsG x y).mean r (j - c.nSingle)

/-- Contract of the training oracle: as many outputs as target columns. -/
def Outs (E : Env R P D) : Prop :=
  ∀ d x y w k, y ≠ [] → (∀ r ∈ y, r.length = k) → (E.train d x y w).outs = k

/-- A training set: as many target rows as rows, each with `t` targets. -/
def Data (x : List R) (y : List (List ℚ)) (t : ℕ) : Prop := y.length = x.length ∧ ∀ r ∈ y, r.length = t

end PyF.Qrf
