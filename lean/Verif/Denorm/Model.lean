import Verif.FmtNorm.Model

/-!
Forecasters whose formatter normalises the target: pyforecaster/forecaster.py L211-217, L224-227, and the end of `predict` of the classes (L348, L406; gradientboosters.py L140, L223;
randomforests.py L152; base_nn.py L466-485; benchmarks.py L14-21, L46-55).

Simplifications: those of `Verif.Normalize` and `Verif.FmtNorm`. What the fitted regressors or the network put out on a frame is an arbitrary function `raw`. All rows are kept for the errors
(the row cap is in `Verif.Subsample`). The scaling of the target inside a network (`normalize_target`) is part of `raw`.
-/

namespace PyF.Denorm

open PyF PyF.Names PyF.Normalize PyF.FmtNorm

variable {N : Type}

/-- What the forecaster uses of its formatter. `rowsOf` are the normaliser values of the rows of a frame. -/
structure Formatter (N : Type) where
  norm : Option (N → ℚ → ℚ)
  denorm : Option (N → ℚ → ℚ)
  targetNames : List Str
  metaCols : List Str
  names : List Str
  ms : List Meta
  rowsOf : Frame → List N

/-- The setting of a call on the frame `x`. -/
def Formatter.setting (f : Formatter N) (x : Frame) : Setting N := ⟨f.norm, f.denorm, f.targetNames, f.metaCols, f.rowsOf x⟩

/-- `anti_transform`, forecaster.py L224-227. -/
def antiTransform (fm : Option (Formatter N)) (x y : Frame) : Except PyErr Frame :=
  match fm with
  | none => .ok y
  | some f =>
    match f.denorm with
    | none => .ok y
    | some _ => denormalizeBoth (f.setting x) f.names f.ms x y

/-- Classes: regressors on lagged features (`LinearForecaster`, `LGBForecaster`, `LGBMHybrid`, `LGBEnergyAware`, `QRF`), networks (`NN` and its subclasses). -/
inductive Family
  | regressor
  | network
  deriving DecidableEq

/-- A fitted forecaster: its formatter, its class and what its models put out. -/
structure Fc (N : Type) where
  fm : Option (Formatter N)
  family : Family
  raw : Frame → Frame

/-- `predict`: forecaster.py L346-349, L401-407, gradientboosters.py L128-141, randomforests.py L126-153 end with `anti_transform`, base_nn.py L466-485 does not. -/
def predict (c : Fc N) (x : Frame) : Except PyErr Frame :=
  match c.family with
  | .regressor => antiTransform c.fm x (c.raw x)
  | .network => .ok (c.raw x)

/-- `y.values - preds.values`, L216, column by column. -/
def errCols (y p : Frame) : List (List ℚ) := List.zipWith (fun a b => List.zipWith (fun u v => u - v) a.2 b.2) y p

/-- The errors of `ScenarioGenerator.fit`, L211-216, on the validation rows. -/
def fitErrs (c : Fc N) (x y : Frame) : Except PyErr (List (List ℚ)) :=
  match antiTransform c.fm x y with
  | .error e => .error e
  | .ok y' =>
    match predict c x with
    | .error e => .error e
    | .ok p => .ok (errCols y' p)

/-- The columns that can be reached by a name, of a frame with columns labelled 0, 1, …: none. -/
def reachable (_ : List (ℕ × List ℚ)) : Frame := []

/-- `Persistent.fit` and `SeasonalPersistent.fit`, benchmarks.py L14-18, L45-50, up to the errors: the targets are in a frame with numbered columns. -/
def persistentFit (fm : Option (Formatter N)) (x : Frame) (hw : List (ℕ × List ℚ)) : Except PyErr Unit :=
  match antiTransform fm x (reachable hw) with
  | .error e => .error e
  | .ok _ => .ok ()

end PyF.Denorm
