import Verif.Common
import Mathlib.Analysis.SpecialFunctions.Complex.Circle
import Mathlib.Analysis.SpecialFunctions.Trigonometric.Basic

/-!
Model of `find_most_important_frequencies`, `pyforecaster/utilities.py` L50-58.

`np.fft.fft` is the exact discrete Fourier transform over ℂ. `np.argsort` is a parameter: a permutation of the positions along which the values
do not decrease (the order of equal values is not determined by numpy's default quick sort).
-/

namespace PyF.Utils
open PyF

/-- `np.fft.fft(x)[k]`, L52. -/
noncomputable def dft (x : List ℝ) (k : Nat) : ℂ :=
  ∑ j ∈ Finset.range x.length, ((x.getD j 0 : ℝ) : ℂ) * Complex.exp (-2 * Real.pi * Complex.I * j * k / x.length)

/-- `mag_spectrum`, L55: the first `len(x) // 2` magnitudes. -/
noncomputable def magSpectrum (x : List ℝ) : List ℝ := (List.range (x.length / 2)).map (fun (k : Nat) => ‖dft x k‖)

/-- What `np.argsort(v)` guarantees. -/
structure ArgSort (v : List ℝ) (p : List Nat) : Prop where
  perm : p.Perm (List.range v.length)
  sorted : p.Pairwise (fun i j => v.getD i 0 ≤ v.getD j 0)

/-- L58 from the result of `argsort`: the last `n_max` positions, sorted, plus one. -/
def pickTop (p : List Nat) (nMax : Nat) : List Nat := ((p.reverse.take nMax).insertionSort (· ≤ ·)).map (· + 1)

/-- `find_most_important_frequencies(x, n_max)`, L50-58, with the ordering function as a parameter. -/
noncomputable def importantFrequencies (argsort : List ℝ → List Nat) (x : List ℝ) (nMax : Nat) : List Nat :=
  pickTop (argsort (magSpectrum x)) nMax

end PyF.Utils
