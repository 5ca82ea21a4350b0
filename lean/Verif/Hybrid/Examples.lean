import Verif.Hybrid.PropsEA

namespace PyF.Hybrid

open PyF

/-- A learner that memorises its training set. Step `i` is given the first `i + 1` features; the second feature is a control. -/
def memo : Env := { train := fun s r => (s.lookup r).getD 0, prune := fun i r => r.take (i + 1), off := fun _ r => r.mapIdx (fun j v => if j = 1 then 0 else v) }

theorem memo_interpolates : Interpolates memo := by
  intro s hc p hp
  show ((s.lookup p.1).getD 0) = p.2
  have key : ∀ l : List (Row × ℚ), p ∈ l → ∃ q ∈ l, q.1 = p.1 ∧ l.lookup p.1 = some q.2 := by
    intro l
    induction l with
    | nil => intro h; simp at h
    | cons a l ih =>
      intro h
      rw [show (a :: l) = ((a.1, a.2) :: l) from rfl, List.lookup_cons]
      by_cases ha : p.1 = a.1
      · refine ⟨a, by simp, ha.symm, ?_⟩
        rw [beq_iff_eq.2 ha]
      · rw [beq_eq_false_iff_ne.2 ha]
        obtain ⟨q, hq, h1, h2⟩ := ih ((List.mem_cons.1 h).resolve_left (fun e => ha (by rw [e])))
        exact ⟨q, List.mem_cons_of_mem _ hq, h1, h2⟩
  obtain ⟨q, hq, h1, h2⟩ := key s hp
  rw [h2]
  exact hc q hq p hp h1

def xs : List Row := [[1, 10], [2, 20], [3, 30]]
def ys : List Row := [[5, 6, 7], [8, 9, 10], [11, 12, 13]]

/-- C141: one single step and two steps of the global model, for which rows 0 and 2, and rows 1 and 1 were drawn. -/
example : (match hybridFit hybridPredict memo ⟨1, 1 / 3, false, none⟩ fresh 3 xs ys [[0, 2], [1, 1]] with
    | .ok (st, errs) => decide ((hybridRow memo ⟨1, 1 / 3, false, none⟩ st [2, 20]).toOption = some [8, 0, 10]) && decide (errs = [[0, 0, 7], [0, 9, 0], [0, 0, 13]])
    | _ => false) = true := by decide +kernel

/-- C141: the hypotheses on the data hold. -/
example : (∀ i, SameWidth (xs.map (memo.prune i))) ∧ SameWidth xs ∧ StepDet (memo.prune 0) xs ys 0 := by
  refine ⟨?_, by unfold SameWidth; decide +kernel, by unfold StepDet at2; decide +kernel⟩
  intro i
  unfold SameWidth
  simp [xs, memo]

/-- C142: 3 of 10 rows per step; ten rows and twenty steps leave none. -/
example : nBatch (3 / 10) 5 10 = 3 ∧ nBatch (1 / 100) 5 10 = 2 ∧ nBatch (1 / 100) 20 10 = 0 := by decide +kernel

/-- C143: three single steps, the targets come back. -/
example : (match eaFit memo ⟨3, 1, false, none⟩ fresh 3 xs ys [] with
    | .ok (st, errs) => (match eaPredict memo ⟨3, 1, false, none⟩ st xs with | .ok p => decide (p = ys) | _ => false) && decide (st.models.length = 6 ∧ errs = [[0, 0, 0], [0, 0, 0], [0, 0, 0]])
    | _ => false) = true := by decide +kernel

/-- C144: two single steps for three targets; and in parallel. -/
example : (match eaFit memo ⟨2, 1, false, none⟩ fresh 3 xs ys [[0]] with | .error .valueError => true | _ => false) = true := by decide +kernel
example : (match eaFit memo ⟨3, 1, true, none⟩ fresh 3 xs ys [] with | .error .valueError => true | _ => false) = true := by decide +kernel

/-- C145: a second fit on other targets leaves the forecasts of the first. -/
example : (match eaFit memo ⟨3, 1, false, none⟩ fresh 3 xs ys [] with
    | .ok (st, _) => (match eaFit memo ⟨3, 1, false, none⟩ st 3 xs (ys.map (fun r => r.map (fun v => v + 100))) [] with
      | .ok (st', _) => (match eaPredict memo ⟨3, 1, false, none⟩ st' xs with | .ok p => decide (p = ys) | _ => false)
      | _ => false)
    | _ => false) = true := by decide +kernel

/-- C146: eight rows and ratio one half: four errors against two. -/
def xl : List Row := (List.range 8).map (fun t => [(t : ℚ), 1])
def yl : List Row := (List.range 8).map (fun t => [(t : ℚ) * t])

example : (match hybridFit hybridPredict memo ⟨1, 1, false, some (1 / 2)⟩ fresh 1 xl yl [], eaFit memo ⟨1, 1, false, some (1 / 2)⟩ fresh 1 xl yl [] with
    | .ok (_, a), .ok (_, b) => decide (a.length = 4 ∧ b.length = 2) | _, _ => false) = true := by decide +kernel

/-- C146: the error of a row that was not seen is the target minus the forecast. -/
example : (match hybridFit hybridPredict memo ⟨1, 1, false, some (1 / 2)⟩ fresh 1 xl yl [] with
    | .ok (st, a) => (match hybridPredict memo ⟨1, 1, false, some (1 / 2)⟩ st (xl.drop 4) with
      | .ok p => decide (a = List.zipWith (fun u v => [u.getD 0 0 - v.getD 0 0]) (yl.drop 4) p ∧ a ≠ [[0], [0], [0], [0]])
      | _ => false)
    | _ => false) = true := by decide +kernel

end PyF.Hybrid
