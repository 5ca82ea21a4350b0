import Verif.Tune.Chance
import Verif.Tune.Examples

namespace PyF.Tune

open PyF

/-- A generator with the outcomes 0 and 1/2: the parameter between 1 and 3 is 1 or 2. -/
def exDec (a : Fin 2) : ℕ → ℕ → ℚ := fun _ _ => (a.val : ℚ) / 2

-- C311: no search of two trials fails, and the trials have the scores 40960 and 0: with probability 1 - (1 - 1/2)^2 = 3/4 the search ends with the second
example : ∀ a b : Fin 2, (match tune exCls exFrame (cartridge [(10, .scalar 1 3)] 2 (numbers (n := 2) exDec (fun i => if i = 0 then a else b))) true (exKw (some [0])) with
    | .ok (o, _) => decide (o.attrs.pars 10 = some (.num (if a = 0 ∧ b = 0 then 1 else 2)))
    | .error _ => false) = true := by decide +kernel

example : ∀ a : Fin 2, (match fitSample exCls { exKw (some [0]) with optimize := false } (trialOf [(10, .scalar 1 3)] (exDec a)) exFrame with
    | .ok (some s, _) => decide (s = some (if a = 0 then 40960 else 0))
    | _ => false) = true := by decide +kernel

end PyF.Tune
