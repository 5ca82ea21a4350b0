import Verif.RecScen.Model

/-! Specification of scenarios by adding past errors of the same hour. -/

namespace PyF.RecScen
variable {K : Type}

/-- All rows of a frame have its width and an hour of the day. -/
def Frame.Ok (f : Frame K) : Prop := ∀ p ∈ f.rows, p.1 < 24 ∧ p.2.length = f.width

/-- Every hour of `g` is an hour of `f`. -/
def Covers (f g : Frame K) : Prop := ∀ p ∈ g.rows, ∃ q ∈ f.rows, q.1 = p.1

/-- `x` is a forecast row plus the *whole* error row `e` (a single error for all series if there is one column only). -/
def IsSum [Add K] (w : Nat) (y e x : List K) : Prop :=
  x.length = y.length ∧ ∀ (j : Nat) (a : K), y[j]? = some a → ∃ b, e[if w = 1 then 0 else j]? = some b ∧ x[j]? = some (a + b)

/-- The slice of an array for row `i` and scenario `s`. -/
def slice (a : List (List (List K))) (i s : Nat) : Option (List K) := (a[i]?).bind (fun row => row.mapM (fun (c : List K) => c[s]?))

end PyF.RecScen
