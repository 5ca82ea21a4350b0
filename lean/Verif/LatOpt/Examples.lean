import Verif.LatOpt.Props

/-! Concrete instances of the hypotheses of C209-C211. -/

namespace PyF.LatOpt
open PyF

-- Two blocks of ten steps; the second improves by more than the tolerance, so it is recorded.
example : (match (optimize gradSquare (fun _ : Unit => shifted 1) (fun _ _ => 0) { pars := (), compiled := none } (callSquare 10 0)).2 with
    | .ok r => decide (r.embedding = (4 / 5) ^ 20 ∧ r.value = ((4 / 5) ^ 19) ^ 2 ∧ r.ctrlHist.length = 20 ∧ r.ctrlHist.head? = some 1 ∧
        r.target = (4 / 5) ^ 20 + 1)
    | .error _ => false) = true := by decide +kernel

-- With a tolerance of one the search stops early and the second block is not recorded.
example : (match (optimize gradSquare (fun _ : Unit => shifted 1) (fun _ _ => 0) { pars := (), compiled := none } (callSquare 30 1)).2 with
    | .ok r => decide (r.embedding = (4 / 5) ^ 20 ∧ r.ctrlHist.length = 10)
    | .error _ => false) = true := by decide +kernel

example : (match (optimize gradSquare (fun _ : Unit => shifted 1) (fun _ _ => 0) { pars := (), compiled := none } (callSquare 9 0)).2 with
    | .ok _ => false
    | .error e => decide (e = .unboundLocalError)) = true := by decide +kernel

-- A reconstruction that is exact.
example : ∃ r, (optimize gradSquare (fun _ : Unit => shifted 0) (fun _ _ => 0) { pars := (), compiled := none } (callSquare 10 0)).2 = .ok r ∧
    (shifted 0).encode () ((shifted 0).decode () r.embedding) = r.embedding := by
  obtain ⟨r, hr, -⟩ := (C209_optimize gradSquare (fun _ : Unit => shifted 0) (fun _ _ => 0) { pars := (), compiled := none } (callSquare 10 0) rfl).2
    (by simp [callSquare])
  exact ⟨r, hr, by simp [shifted]⟩

/-- Gradient by a difference quotient, so that the objective matters. -/
def quotient : Opt ℚ Unit := { init := fun _ => (), step := fun _ f e _ => (e - 1 / 10 * (f (e + 1) - f e), ()) }

/-- Minimise the prediction, or its negative. -/
def callLinear (sign : ℚ) (recompile : Bool) : Call Unit ℚ ℚ Unit :=
  { x := (), u := 0, objective := fun _ z _ => sign * z, kw := (), nIter := 10, tol := 0, recompile := recompile, vanilla := true }

-- The second call asks for the opposite but goes the same way, and after a training for a shift of five it starts at five.
example : (match (history quotient shifted (fun _ _ => 0) { pars := 0, compiled := none }
      [.optimize (callLinear 1 false), .optimize (callLinear (-1) false), .train 5, .optimize (callLinear (-1) false), .optimize (callLinear (-1) true)]).2 with
    | [.ok a, .ok b, .ok c, .ok d] => decide (a.embedding = -2 ∧ b.embedding = -2 ∧ c.embedding = 3 ∧ d.embedding = 7)
    | _ => false) = true := by decide +kernel

example : ∀ e ∈ [Event.optimize (callLinear (-1) false), .train (5 : ℚ)], Reuses e := by
  intro e he
  simp only [List.mem_cons, List.not_mem_nil, or_false] at he
  rcases he with rfl | rfl
  · rfl
  · trivial

end PyF.LatOpt
