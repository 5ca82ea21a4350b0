import Verif.Refine.Props

/-! Concrete refinements. -/

namespace PyF.Refine.Examples
open PyF

def pt (x : ℚ) : Pt 1 := fun _ => x

/-- A root and two leaves; labels as extra data. -/
def g : List (Node 1 String) := [⟨0, 1, pt 1, "root"⟩, ⟨1, 1 / 2, pt 0, "left"⟩, ⟨1, 1 / 2, pt 10, "right"⟩]

/-- Three scenarios. -/
def samples : List (List (Pt 1)) := [[pt 0, pt 0, pt 3], [pt 1, pt 9, pt 11]]

/-- Candidates one above and one below. -/
def cand (_t i : ℕ) (A : List (Pt 1)) : List (Pt 1) := [fun j => (A.getD i (pt 0)) j + 1, fun j => (A.getD i (pt 0)) j - 1]

def table (r : Except PyErr (List (Node 1 String) × List (ℚ × ℚ))) : List (ℚ × ℚ) :=
  match r with
  | .ok p => p.2
  | .error _ => []

def newVals (r : Except PyErr (List (Node 1 String) × List (ℚ × ℚ))) : List (ℕ × ℚ × ℚ) :=
  match r with
  | .ok p => p.1.map (fun n => (n.t, n.p, n.v 0))
  | .error _ => []

/-- The left leaf moves to 1, the right one stays. The probabilities stay, though only one scenario of three is nearest to the left leaf. -/
example : newVals (refine Spec.cityblock cand samples g) = [(0, 1, 0), (1, 1 / 2, 1), (1, 1 / 2, 10)] := by decide +kernel
example : table (refine Spec.cityblock cand samples g) = [(4, 3), (3, 2)] := by decide +kernel

/-- With squared distances the refined root is worse: 6 before, 9 after. -/
def sqeuclidean (s a : Pt 1) : ℚ := (s 0 - a 0) * (s 0 - a 0)

example : table (refine sqeuclidean cand samples g) = [(6, 9), (3, 2)] := by decide +kernel

/-- Two roots. -/
example : (match refine Spec.cityblock cand samples (⟨0, 1, pt 1, "other"⟩ :: g) with | .error e => decide (e = .indexError) | .ok _ => false) = true := by decide +kernel

example : ∀ S ∈ samples, S ≠ [] := by
  intro S hS hc
  subst hc
  simp [samples] at hS

end PyF.Refine.Examples
