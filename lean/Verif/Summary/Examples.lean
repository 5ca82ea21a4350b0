import Verif.Summary.Props2

/-! Concrete instances of C165–C170. -/

namespace PyF.Summary
open PyF

/-- Three rows, two steps. -/
def exX : DF := ⟨[0, 1, 2], ["a", "b"], fun i j => some (i + 2 * j : ℕ)⟩
def exTt : DF := ⟨[0, 1, 2], ["y1", "y2"], fun i _ => some (i : ℕ)⟩
def exMask : Mask := ⟨[0, 1, 2], 2, fun i j => !(i == 1 && j == 1)⟩
def exIdx : Idxs := ⟨[0, 1, 2], [⟨"hour", .int64, [some (.num 0), some (.num 1), some (.num 0)]⟩]⟩

/-- Scores at given labels and columns. -/
def at1 (o : Out) (l : Lab) (j : Nat) : Option (List (String × List (String × Cell))) :=
  match o.res with
  | .error _ => none
  | .ok r => some (r.map fun p => (p.1, p.2.map fun s => (s.1, s.2.val l j)))

/-- C165: the group of hour 1 is masked out in the second step. -/
example : at1 (summaryScores (.df exX) (.df exTt) [("rmse", .rmse)] exIdx (some exMask) 10) (.num 1) 1 = some [("rmse", [("hour", none)])] := by decide +kernel
example : at1 (summaryScores (.df exX) (.df exTt) [("rmse", .rmse)] exIdx (some exMask) 10) (.num 0) 1 = some [("rmse", [("hour", some 4)])] := by decide +kernel
example : at1 (summaryScores (.df exX) (.df exTt) [("rmse", .rmse)] exIdx none 10) (.num 1) 1 = some [("rmse", [("hour", some 4)])] := by decide +kernel
/-- C169: afterwards the forecast has the labels of the targets. -/
example : (summaryScores (.df exX) (.df exTt) [("rmse", .rmse)] exIdx none 10).xcols = some ["y1", "y2"] := by decide +kernel
example : (summaryScores (.df exX) (.df exTt) [("rmse", .rmse)] exIdx (some exMask) 10).xcols = some ["a", "b"] := by decide +kernel
example : exX.index = exTt.index ∧ exX.cols.length = exTt.cols.length ∧ exMask.index = exTt.index ∧ exMask.m = exTt.cols.length ∧
    (match labels exIdx.cols 10 with | .ok ls => decide (ls ≠ []) | .error _ => false) = true := by decide +kernel
/-- C168: labels are paired by position although their time stamps run backwards. -/
example : at1 (summaryScores (.df exX) (.df exTt) [("rmse", .rmse)] ⟨[2, 1, 0], exIdx.cols⟩ none 10) (.num 0) 0 =
    at1 (summaryScores (.df exX) (.df exTt) [("rmse", .rmse)] exIdx none 10) (.num 0) 0 := by decide +kernel
/-- C168: a forecast in another order is refused. -/
example : at1 (summaryScores (.df { exX with index := [1, 0, 2] }) (.df exTt) [("rmse", .rmse)] exIdx none 10) (.num 0) 0 = none := by decide +kernel
/-- C170: two metrics of the same name give one entry. -/
example : at1 (summaryScores (.df exX) (.df exTt) [("f", .rmse), ("f", .mape)] exIdx none 10) (.num 0) 0 = some [("f", [("hour", some 0)])] := by decide +kernel
example : at1 (summaryScores (.df exX) (.df exTt) [("f", .mape), ("f", .rmse)] exIdx none 10) (.num 0) 1 = some [("f", [("hour", some 4)])] := by decide +kernel

/-- C166: half of the targets are missing, all present ones are covered: reliability one half. -/
example : reliability [some (.num 0), some (.num 0)] (fun _ _ => 5) (fun i _ => if i = 0 then some 1 else none) (.num 0) 0 = some (1 / 2) := by decide +kernel
example : observed [some (.num 0), some (.num 0)] (fun i _ => if i = 0 then some 1 else none) (.num 0) 0 ≠ [] := by decide +kernel
example : (match maskShape3 3 2 11 exMask with | .ok _ => true | .error _ => false) = false := by decide +kernel

/-- C167: a column of 32-bit integers with two different values, two bins asked for. -/
def exC : IdxCol := ⟨"day", .int32, [some (.num 1), some (.num 2), some (.num 7), none]⟩
def exFl : IdxCol := ⟨"temp", .float, [some (.num (1 / 2)), some (.num (1 / 2)), some (.num (1 / 2)), some (.num (1 / 2))]⟩
example : exC.dtype = .int32 ∧ exFl.dtype = .float ∧ ¬ Few exC.vals 2 := by
  rw [← few_iff]
  decide +kernel
example : (match labels [exC, exFl] 2 with | .ok ls => ls | .error _ => []) =
    [("day", [some (.bin 1 2), some (.bin 1 2), some (.bin 2 7), none]), ("temp", exFl.vals)] := by decide +kernel
example : (match labels [exC] 2 with | .ok ls => ls | .error _ => []) = [("day", exC.vals)] := by decide +kernel
example : (match labels [⟨"name", .object, [some (.txt "a"), some (.txt "b")]⟩, exFl] 2 with | .ok _ => true | .error _ => false) = false := by decide +kernel

end PyF.Summary
