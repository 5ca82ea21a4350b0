import Verif.Tune.Budget
import Verif.Tune.Examples

/-!
A search with one trial and one with two from the same numbers: the second finds the better parameter.
-/

namespace PyF.Tune

open PyF

/-- The numbers of the generator: the trials are 1 and 2. -/
def exU (i _ _ : ℕ) : ℚ := if i = 0 then 1 / 4 else 1 / 2

example : cartridge [(10, .scalar 0 4)] 2 exU = exTrials.take 2 := by decide +kernel

example : (match tune exCls exFrame (cartridge [(10, .scalar 0 4)] 1 exU) true (exKw (some [0])), tune exCls exFrame (cartridge [(10, .scalar 0 4)] 2 exU) true (exKw (some [0])) with
    | .ok a, .ok b => decide (a.2.pars 10 = some (.num 1) ∧ b.2.pars 10 = some (.num 2)) | _, _ => false) = true := by
  decide +kernel

example : (match scoresPar exCls { exKw (some [0]) with optimize := false } exFrame (cartridge [(10, .scalar 0 4)] 2 exU) with
    | .ok s => decide (s = [some 40960, some 0]) | .error _ => false) = true := by
  decide +kernel

end PyF.Tune
