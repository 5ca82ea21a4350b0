import Verif.Common
import Mathlib.Data.Rat.Defs
import Mathlib.Algebra.Order.Field.Rat

/-!
Model of `bootstrap`, `pyforecaster/stat_utils.py` L12-59, without the plots and without the local `history`, which only the plots use.

A series is a list of (label, value). The draws `np.random.choice(series.index, (n_sampling, n))` are a parameter: a list of `n_sampling` lists of labels. Standard
deviations are represented by their squares.
-/

namespace PyF.Boot
open PyF

/-- `series.loc[s]`, L35: for each label of `s` in turn, all the values that carry it; an absent label is a KeyError. -/
def loc (series : List (Nat × ℚ)) (s : List Nat) : Except PyErr (List ℚ) :=
  if s.all (fun l => series.any (fun r => r.1 == l)) then
    .ok (s.flatMap (fun l => (series.filter (fun r => r.1 == l)).map Prod.snd))
  else .error .keyError

/-- `np.arange(100, n_sampling, 500)`, L24. -/
def sampleAt (nSampling : Nat) : List Nat := (List.range ((nSampling - 100 + 499) / 500)).map (fun (k : Nat) => 100 + 500 * k)

/-- Mean of the statistics. -/
def mean (l : List ℚ) : ℚ := l.sum / l.length

/-- `np.std(stats) ** 2`. -/
def var (l : List ℚ) : ℚ := (l.map (fun z => (z - mean l) ^ 2)).sum / l.length

/-- The statistics of the first `n_s` resamples, L33-35. -/
def statsOf (series : List (Nat × ℚ)) (f : List ℚ → ℚ) (samples : List (List Nat)) (nS : Nat) : Except PyErr (List ℚ) :=
  (samples.take nS).mapM (fun s => match loc series s with
    | .error e => .error e
    | .ok v => .ok (f v))

/-- The rows of `summary`, L32-42. -/
def summary (series : List (Nat × ℚ)) (f : List ℚ → ℚ) (samples : List (List Nat)) (ns : List Nat) : Except PyErr (List (ℚ × ℚ)) :=
  ns.mapM (fun n => match statsOf series f samples n with
    | .error e => .error e
    | .ok st => .ok (mean st, var st))

/-- `bootstrap(series, stat_fun, n_sampling=…)`, L12-59; with no row, `history['bootsrtap samples']`, L44, is a KeyError. -/
def bootstrap (series : List (Nat × ℚ)) (f : List ℚ → ℚ) (samples : List (List Nat)) (nSampling : Nat) : Except PyErr (ℚ × ℚ) :=
  match summary series f samples (sampleAt nSampling) with
  | .error e => .error e
  | .ok rows => match rows.getLast? with
    | none => .error .keyError
    | some r => .ok r

end PyF.Boot
