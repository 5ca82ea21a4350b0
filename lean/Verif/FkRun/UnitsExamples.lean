import Verif.FkRun.Units
import Verif.FkRun.Examples

/-! A concrete instance of C314. -/

namespace PyF.FkRun

theorem exE_getD (f : List ℝ) (i : ℕ) : (f.map (fun v => 1000 * v)).getD i 0 = 1000 * f.getD i 0 := by
  rcases Nat.lt_or_ge i f.length with h | h
  · simp [h]
  · simp [h]

-- The two experts of the examples on a signal in W instead of kW.
theorem exE_converted : Spec.Converted 1000 0 exE exE (fun f => f.map (fun v => 1000 * v)) (fun e e' => e' = 1000 * e) where
  len := by intro f; simp [exE]
  obs := by intro f i; simp only [exE]; rw [exE_getD]; ring
  fit := by
    intro e e' f h
    subst h
    simp only [exE]
    rw [List.sum_map_mul_left]
    simp only [List.map_id']
    ring
  predict := by
    intro e e' f h j i s
    subst h
    simp only [exE]
    rw [exE_getD]
    split <;> ring

-- A fit and a prediction.
example (c : Cfg 2) (o1 : Obj ℝ 2) (rs : List (List (Option (ℕ → ℝ))))
    (h : calls c exE { experts := 0, states := fresh c } [([1, 2, 4], true), ([3, 5], false)] = .ok (o1, rs)) :
    ∃ o1', calls c exE { experts := 0, states := fresh c }
      (List.map (fun p => (p.1.map (fun v => 1000 * v), p.2)) [([1, 2, 4], true), ([3, 5], false)])
      = .ok (o1', rs.map (fun rows => rows.map (Spec.convert 1000 0))) ∧ o1'.states = o1.states ∧ o1'.experts = 1000 * o1.experts :=
  (C314_units 1000 0 (by norm_num) c exE exE _ _ exE_converted _ { experts := 0, states := fresh c } rfl (by simp)
    [([1, 2, 4], true), ([3, 5], false)]).2 o1 rs h

end PyF.FkRun
