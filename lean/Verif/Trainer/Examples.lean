import Verif.Trainer.Props

namespace PyF.Trainer
open PyF

/-- A class that remembers all the rows it was fitted on; scores: how many test rows it has not seen, and how many rows it has seen. -/
def exCls : Cls (List Nat) Bool where
  clone := fun _ => []
  fit := fun st rows => st ++ rows
  score := fun b st rows => if b then ((rows.filter (fun r => decide (r ∉ st))).length : ℚ) else (st.length : ℚ)

def exTimes : List Label := [.time 10, .time 20, .time 30, .time 40]
def exInts : List Label := [.int 0, .int 1, .int 2, .int 3]
def exShift : List Label := [.int 1, .int 2, .int 3, .int 4]
def exKFold : List (Sel × Sel) := [(.pos [0, 1], .pos [2, 3]), (.pos [2, 3], .pos [0, 1])]
def exMasks : List (Sel × Sel) := [(.mask [true, true, false, false], .mask [false, false, true, true]), (.mask [false, false, true, true], .mask [true, true, false, false])]

def exRows : List (List Nat × List Nat) := [([0, 1], [2, 3]), ([2, 3], [0, 1])]

def isOkWith (x : Except PyErr (Result (List Nat))) (score : ℚ) (m : List Nat) : Bool :=
  match x with
  | .ok r => decide (r.score = score ∧ r.model = m)
  | .error _ => false

theorem exRows_masks : FoldRows 4 exMasks exRows :=
  (ilocFolds_iff exTimes exMasks exRows).1 rfl

-- C59: hypotheses of the full run, two scores, none named `score`
example : ∃ r, crossValidate exCls [7] exTimes (.gen exMasks) "full".toList 0 (.dict [("new".toList, true), ("seen".toList, false)]) none false = .ok r ∧ r.model = [7] ∧ r.score = 2 := by
  obtain ⟨r, h, hm, _, _, hs⟩ := C59_full exCls [7] exTimes exMasks (.gen exMasks) (.inr rfl) exRows exRows_masks "new".toList true [("seen".toList, false)] (by decide) 0
  exact ⟨r, h, hm, (hs (by decide)).trans (by decide +kernel)⟩
example : isOkWith (crossValidate exCls [7] exTimes (.list exKFold) "full".toList 0 (.dict [("new".toList, true), ("score".toList, false)]) none false) 2 [7] = true := by decide +kernel
example : isOkWith (crossValidate exCls [7] exTimes (.list exKFold) "full".toList 0 (.single true) none false) 2 [7] = true := by decide +kernel

-- C59: random folds with a dictionary of scores
example : (crossValidate exCls [] exTimes (.list exMasks) "random_fold".toList 1 (.dict [("new".toList, true)]) none false).isOk = false := by decide +kernel
example : isOkWith (crossValidate exCls [] exTimes (.list exMasks) "random_fold".toList 1 (.dict [("new".toList, true)]) (some "new".toList) false) 2 [2, 3] = true := by decide +kernel
example : (loc exTimes (.mask [false, false, true, true])).isOk = true := by decide +kernel
example : ¬ ∃ r, crossValidate exCls [] exTimes (.list exMasks) "random_fold".toList 1 (.dict [("new".toList, true), ("seen".toList, false)]) none false = .ok r := by
  rw [(C59_random_fold_dict exCls [] exTimes exMasks 1 (.mask [false, false, true, true], .mask [true, true, false, false]) rfl [2, 3] [0, 1] rfl rfl "new".toList true [("seen".toList, false)] false).1]
  decide

-- C59: unknown type
example : crossValidate exCls [] exTimes (.list exMasks) "half".toList 1 (.single true) none false = .error .valueError := C59_unknown_type _ _ _ _ _ _ _ _ _ (by decide) (by decide)

-- C107: right on a default index, shifted on another one, refused on time stamps
example : loc exInts (.pos [2, 3]) = .ok [2, 3] := ((C107_positions_read_as_labels exInts (by decide) [2, 3] (by decide)).1).2 (by decide)
example : loc exShift (.pos [2, 3]) = .ok [1, 2] := rfl
example : (loc exShift (.pos [0, 1])).isOk = false := by decide +kernel
example : crossValidate exCls [] exTimes (.list exKFold) "random_fold".toList 0 (.single true) none false = .error .keyError :=
  (C107_kfold_on_time_index exCls [] exTimes (by decide) (by simp [exTimes]) exKFold 0 [0, 1] [2, 3] (by decide) (by decide) rfl (.single true) none).1 false
example : crossValidate exCls [] exTimes (.gen exMasks) "random_fold".toList 0 (.single true) none false = .error .typeError := (C107_generator exCls [] exTimes exMasks 0 (.single true) none).1 false

-- C108: after the two folds the object has seen every row, and the second score counts no unseen row
example : (match afterTrials exCls exTimes exMasks "random_fold".toList true [0, 1] [] with | .ok s => decide (s = [0, 1, 2, 3]) | .error _ => false) = true := by decide +kernel
example : isOkWith (crossValidate exCls [0, 1] exTimes (.list exMasks) "random_fold".toList 1 (.single true) none false) 0 [0, 1, 2, 3] = true := by decide +kernel
example : (match afterTrials exCls exTimes exMasks "full".toList true [0, 1] [5] with | .ok s => decide (s = [5]) | .error _ => false) = true := by decide +kernel

end PyF.Trainer
