import Verif.Pickle.Props
import Mathlib.Algebra.Field.Rat

/-! Concrete instances: a `Fourier_es` object fitted once. -/

namespace PyF.Pickle
open PyF

def exO : Obj Nat := construct fourierNames (fun _ => 0) (fun k => if k = "m" then some 24 else none)
def exNew : Dict Nat := fun k => if k ∈ fourierNames then some 7 else none
def exFitted : Dict Nat := fun k => if k = "err_distr" then some 3 else none

def okObj (r : Except PyErr (Obj Nat)) (f : Obj Nat → Option Nat) : Option Nat := match r with | .ok o => f o | .error _ => none
def errOf (r : Except PyErr (Obj Nat)) : Option PyErr := match r with | .ok _ => none | .error e => some e

/-- the hypotheses of the theorems are met -/
example : ∃ o, run exO [.fit exNew exFitted, .set exNew] = .ok o := ⟨_, rfl⟩
example : HasNames fourierNames exNew := by intro k; unfold exNew; split <;> simp_all
example : okObj (run exO [.fit exNew exFitted]) (fun o => o.states.bind (fun s => s "eps")) = some 7 := by decide +kernel
example : okObj (run exO [.fit exNew exFitted]) (fun o => o.attrs "err_distr") = some 3 := by decide +kernel
/-- a fitted object cannot be copied -/
example : errOf (match run exO [.fit exNew exFitted] with | .ok o => copy id o | .error e => .error e) = some .attributeError := by decide +kernel
/-- a transfer gives the states but not the quantiles of the errors -/
example : okObj (setState exO exNew) (fun o => o.states.bind (fun s => s "x")) = some 7 ∧ okObj (setState exO exNew) (fun o => o.attrs "err_distr") = none := by decide +kernel
/-- plain objects are copied -/
example : copyPlain (fun n => n) (fun k => if k = "alpha" then some 8 else none) "alpha" = some 8 := by decide +kernel

end PyF.Pickle
