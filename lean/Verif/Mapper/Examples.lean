import Verif.Mapper.Props

/-! Examples for C282. -/

namespace PyF.Mapper
open PyF

/-- `def f(p, a, b): return [p, a, b]`. -/
def f : Fun Nat Nat (List Nat) := { names := ["a", "b"], body := fun p vs => p :: vs }

/-- Keywords in the order of the declaration. -/
example : (mapper 4 f [1, 2] [] false [("a", 10), ("b", 20)]).toOption = some [[1, 10, 20], [2, 10, 20]] := by decide +kernel

/-- In the other order the values are swapped. -/
example : (mapper 4 f [1, 2] [] false [("b", 20), ("a", 10)]).toOption = some [[1, 20, 10], [2, 20, 10]] := by decide +kernel

/-- The call meant there. -/
example : Binds f [] [("b", 20), ("a", 10)] [10, 20] := by
  refine ⟨[10, 20], rfl, rfl, ?_⟩
  intro q
  simp [f, or_comm]

/-- Unknown names are not noticed. -/
example : (mapper 4 f [1] [5] false [("c", 7)]).toOption = some [[1, 5, 7]] := by decide +kernel

/-- The function tells its arguments apart. -/
example (p : Nat) (a b : List Nat) (h : f.body p a = f.body p b) : a = b := (List.cons.inj h).2

/-- One processor. -/
example : (mapper 1 f [1] [5] false [("b", 7)]).toOption = none := by decide +kernel

end PyF.Mapper
