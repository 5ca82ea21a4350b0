import Verif.BigData.Props
import Verif.BigData.Memory

namespace PyF.BigData

open PyF

/-- C65: seven rows in three chunks. -/
example : (match arraySplit [0, 1, 2, 3, 4, 5, 6] 3 with | .ok d => decide (d = [[0, 1], [2, 3], [4, 5, 6]]) | .error _ => false) = true := by decide
/-- C65: fewer rows than chunks leave empty chunks. -/
example : (match arraySplit [7] 2 with | .ok d => decide (d = [[], [7]]) | .error _ => false) = true := by decide
/-- C65: rounded cut points. -/
example : Monotone (fun s : Nat => if s = 0 then 0 else if s = 1 then 2 else 7) := by
  intro a b h
  show (if a = 0 then 0 else if a = 1 then 2 else 7) ≤ (if b = 0 then 0 else if b = 1 then 2 else 7)
  split_ifs <;> omega

/-- A frame with four rows and four columns. -/
def exDf : Frame Nat Nat Int := ⟨[3, 1, 2, 0], [10, 11, 12, 13], [[1, 2, 3, 4], [5, 6, 7, 8], [9, 10, 11, 12], [13, 14, 15, 16]]⟩
example : Wf exDf := ⟨rfl, by decide⟩
/-- Doubling keeps the shape. -/
def exF (a : Arr Int) : Arr Int := ⟨a.width, a.rows.map (·.map (2 * ·))⟩
example : KeepsShape exF := fun _ => ⟨rfl, by simp [exF]⟩
/-- The same on frames. -/
def exG (d : Frame Nat Nat Int) : Except PyErr (Frame Nat Nat Int) := .ok ⟨d.cols, d.idx, d.rows.map (·.map (2 * ·))⟩

/-- C66: two chunks along the rows, only two rows are left. -/
example : (match fdfParallel (fun a => .ok (exF a)) exG (.frame exDf) 2 false false true with | .ok (.arr a) => decide (a.rows = [[2, 4, 6, 8], [10, 12, 14, 16]]) | _ => false) = true := by decide +kernel
/-- C66: two chunks along the columns, only two columns are left; three chunks cannot be labelled. -/
example : (match fdfParallel (fun a => .ok (exF a)) exG (.frame exDf) 2 true false true with | .ok (.arr a) => decide (a.rows = [[2, 4], [10, 12], [18, 20], [26, 28]] ∧ a.width = 2) | _ => false) = true := by decide +kernel
example : (fdfParallel (fun a => .ok (exF a)) exG (.frame exDf) 3 true false true).isOk = false := by decide +kernel
/-- C66: with ray everything is there. -/
example : (match fdfParallel (fun a => .ok (exF a)) exG (.frame exDf) 3 false true true with | .ok (.frame d) => decide (d.rows = exDf.rows.map (·.map (2 * ·)) ∧ d.idx = exDf.idx ∧ d.cols = exDf.cols) | _ => false) = true := by decide +kernel
example : (match fdfParallel (fun a => .ok (exF a)) exG (.frame exDf) 3 true true true with | .ok (.frame d) => decide (d.rows = exDf.rows.map (·.map (2 * ·)) ∧ d.idx = exDf.idx ∧ d.cols = exDf.cols) | _ => false) = true := by decide +kernel
/-- C66: a function of whole columns (here: the number of rows) does depend on the chunks. -/
example : (match fdfParallel (fun a => .ok (exF a)) (fun d => .ok ⟨d.cols, d.idx, d.rows.map (fun r => r.map (fun _ => (d.rows.length : Int)))⟩) (.frame exDf) 2 false true true with | .ok (.frame d) => decide (d.rows.headD [] = [2, 2, 2, 2]) | _ => false) = true := by decide +kernel
/-- C66: the row maps meet the conditions of `C66_ray_rows`. -/
example : (fun (l : List (Nat × List Int)) => l.map (fun p => (p.1, p.2.map (2 * ·)))) [] = [] := rfl
/-- C66: trees of four rows with three processors. -/
example : (match predTrees (fun (i : Nat) (r : List Int) => (i, r.length)) exDf 3 true with | .ok l => decide (l = [(10, 4), (11, 4), (12, 4), (13, 4)]) | .error _ => false) = true := by decide +kernel
example : (predTrees (fun (i : Nat) (r : List Int) => (i, r.length)) exDf 1 true).isOk = false := by decide +kernel
/-- C66: five series, two processors. -/
example : cpuFolds [1, 2, 3, 4, 5] 2 = [[1, 2], [3, 4], [5]] := by decide

/-- C113: columns 3, 1, 2, 0 get the labels 0, 1, 2, 3. -/
example : (match fdfParallel (fun a => .ok (exF a)) exG (.frame exDf) 4 true false true with | .ok (.frame d) => decide (d.cols = [0, 1, 2, 3] ∧ d.rows.headD [] = [2, 4, 6, 8]) | _ => false) = true := by decide +kernel

/-- C67: from 64 to 8 and 16 bits; an extreme value makes the type grow. -/
example : reduceInt 64 [1, -100, 126] = (8, [1, -100, 126]) := by decide
example : reduceInt 64 [127] = (16, [127]) := by decide
example : reduceInt 8 [127] = (16, [127]) := by decide
example : reduceInt 64 [9223372036854775807] = (64, [9223372036854775807]) := by decide
example : InRange 8 127 ∧ InRange 64 9223372036854775807 := by unfold InRange; norm_num

open Classical in
/-- A conversion that meets the contract (any rounding of the other values will do). -/
noncomputable def exR (x : ℚ) : ℚ := if Rep x then x else 0
theorem exR_rounds : Rounds exR := by
  constructor
  · intro x
    unfold exR
    split
    · assumption
    · exact ⟨0, 0, by norm_num, by norm_num⟩
  · intro x hx; unfold exR; rw [if_pos hx]
/-- C114: the count 2^24 + 1 is not kept. -/
example : (reduceFloat (fun _ => true) exR [.nan, .fin 16777217]).2 ≠ [.nan, .fin 16777217] := by
  intro h
  have h1 := (C114_floats (fun _ => true) exR exR_rounds [.nan, .fin 16777217]).2.2.1.1 h
  rcases h1 with h1 | h1
  · exact absurd h1 (by rw [((C114_floats (fun _ => true) exR exR_rounds [.nan, .fin 16777217]).1).2 ⟨⟨.fin 16777217, by simp, by simp⟩, by simp⟩]; norm_num)
  · exact not_rep (h1 _ (by simp))
/-- C67: a column of text stays. -/
example : (reduceSeq (fun _ => true) id [(1, .ints 64 [5]), (2, .other 0)]).1 = [(1, .ints 8 [5]), (2, (.other 0 : Col ℚ))] := by rfl

end PyF.BigData
