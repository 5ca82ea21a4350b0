import Verif.Hyper.Props
import Verif.Hyper.Props2

/-! Concrete searches meeting the hypotheses of the theorems. -/

namespace PyF.Hyper.Examples
open PyF PyF.Params

/-- Two stored parameters and one that is not; the training reads the frozen dictionary. -/
def cls : Cls String ℚ := ⟨["n_estimators", "learning_rate", "nodes_at_step"], ["n_estimators", "learning_rate", "nodes_at_step"], fun _ => 0, fun n => n != "nodes_at_step", true⟩

def kw₀ : List (String × ℚ) := [("n_estimators", 100), ("learning_rate", 1), ("nodes_at_step", 7)]

def ob : Obj String ℚ := ⟨fun n => (kw₀.lookup n).getD 0, fun n => if n != "nodes_at_step" then some ((kw₀.lookup n).getD 0) else none, fun n => (kw₀.lookup n).getD 0⟩

example : construct cls kw₀ = .ok ob := rfl

/-- The score grows with the number of trees, the learning rate and the fold. -/
def score (o : Obj String ℚ) (k : ℕ) : Option ℚ := some (o.frozen "n_estimators" + o.frozen "learning_rate" + k)

/-- Three trials of both parameters; the first is the best. -/
def fixed (h : List (Trial String ℚ)) : List (String × ℚ) := [("n_estimators", 10 * (h.length + 1)), ("learning_rate", 1 / 2)]

def values (r : Except PyErr (Obj String ℚ × List (Trial String ℚ))) : List (Option ℚ) :=
  match r with
  | .ok p => p.2.map (·.value)
  | .error _ => []

def final (r : Except PyErr (Obj String ℚ × List (Trial String ℚ))) (n : String) : Option ℚ :=
  match r with
  | .ok p => p.1.attrs n
  | .error _ => none

example : values (search cls true 2 score (fun _ => 0) fixed 3 ob) = [some 11, some 21, some 31] := by decide +kernel

/-- The object is left with the last trial, not the best. -/
example : final (search cls true 2 score (fun _ => 0) fixed 3 ob) "n_estimators" = some 30 := by decide +kernel

example : Spec.Best [some 11, some 21, some (31 : ℚ)] 0 := by
  refine ⟨11, rfl, ?_, fun j hj => absurd hj (Nat.not_lt_zero j)⟩
  intro j r hr
  match j, hr with
  | 0, hr => cases hr; decide +kernel
  | 1, hr => cases hr; decide +kernel
  | 2, hr => cases hr; decide +kernel
  | j + 3, hr => cases hr

/-- A conditional space: only the first trial names the learning rate. Its value leaks into the second: 20 + 1/2, where alone it gives 20 + 1. -/
def conditional (h : List (Trial String ℚ)) : List (String × ℚ) := if h.length = 0 then [("n_estimators", 10), ("learning_rate", 1 / 2)] else [("n_estimators", 20)]

example : values (search cls true 1 score (fun _ => 0) conditional 2 ob) = [some (21 / 2), some (41 / 2)] := by decide +kernel
example : values (search cls true 1 score (fun _ => 0) (fun _ => [("n_estimators", 20)]) 1 ob) = [some 21] := by decide +kernel

/-- `random_fold` of the same class: the value does not depend on the trial, only on the fold drawn. -/
example : values (search cls false 2 score (fun i => i) fixed 3 ob) = [some 101, some 102, some 103] := by decide +kernel

/-- The default space of a class that is not in the map. -/
example : spaceNames "QRF" = ["model__n_estimators", "model__learning_rate"] := by decide +kernel
example : (match search cls true 2 score (fun _ => 0) (fun _ => [("model__n_estimators", 20), ("model__learning_rate", 1)]) 3 ob with | .error e => decide (e = .valueError) | .ok _ => false) = true := by
  decide +kernel

example : denseRank [some 3, none, some 1, some 3, some 2] = [some 3, none, some 1, some 3, some 2] := by decide +kernel
example : denseRank [some 30, some 10, some 10, some 40] = [some 2, some 1, some 1, some 3] := by decide +kernel
example : variance [1, 2, 3, 6] = 7 / 2 := by decide +kernel

end PyF.Hyper.Examples
