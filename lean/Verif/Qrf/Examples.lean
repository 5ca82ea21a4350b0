import Verif.Qrf.Props
import Verif.Qrf.Props2

namespace PyF.Qrf

open PyF

/-- A forest whose mean is the mean-like sum of the training column `j` plus the row and whose level-`q` quantile adds `q`. -/
def exE : Env ℚ ℕ Unit where
  prune := fun i p r => r + i * 100 + p
  period0 := 24
  train := fun _ x y w => ⟨(y.headD []).length, fun r j => r + (y.map (fun l => l.getD j 0)).sum + ((w.getD []).sum) + x.length,
    fun r j q => r + q + 10 * j + (y.map (fun l => l.getD j 0)).sum + ((w.getD []).sum)⟩

theorem exE_outs : Outs exE := by
  intro d x y w k hy hr
  cases y with
  | nil => exact absurd rfl hy
  | cons a y => exact hr a (by simp)

def exX : List ℚ := [1, 2, 3, 4]
def exY : List (List ℚ) := [[1, 2, 3], [4, 5, 6], [7, 8, 9], [1, 0, 2]]

theorem exData : Data exX exY 3 := by unfold Data; decide +kernel

/-- The (row, target, level) entries of the quantile forecast, `none` for an exception. -/
def exQuant (n : ℕ) (l : List ℚ) : Option (List ℚ) :=
  match fit exE ⟨n, true, none⟩ () () 3 exX exY none with
  | .error _ => none
  | .ok s =>
    match predict exE ⟨n, true, none⟩ s [5, 6] ⟨some (.levels l), none⟩ with
    | .ok (.quant 2 3 _ f) => some ((List.range 2).flatMap fun i => (List.range 3).flatMap fun j => (List.range l.length).map fun k => f i j k)
    | _ => none

-- C177: one single-step forest and a global one for two steps; the frame has the quantiles of the right forests
example : exQuant 1 [1/4, 1/2] = some ([ (5 : ℚ) + 24 + 1/4 + 13, 5 + 24 + 1/2 + 13, 5 + 1/4 + 15, 5 + 1/2 + 15, 5 + 1/4 + 10 + 20, 5 + 1/2 + 10 + 20,
    6 + 24 + 1/4 + 13, 6 + 24 + 1/2 + 13, 6 + 1/4 + 15, 6 + 1/2 + 15, 6 + 1/4 + 10 + 20, 6 + 1/2 + 10 + 20]) := by decide +kernel

-- C177: two single-step forests leave one step to the global forest: no quantile forecast with two levels, but one with a single level
example : exQuant 2 [1/4, 1/2] = none ∧ (exQuant 2 [1/4]).isSome = true := by decide +kernel

example : ∃ s, fit exE ⟨2, true, none⟩ () () 3 exX exY none = .ok s ∧
    predict exE ⟨2, true, none⟩ s [5, 6] ⟨some (.levels [1/4, 1/2]), none⟩ = .error .valueError := by
  refine ⟨_, rfl, (C177_quantiles exE ⟨2, true, none⟩ () () 3 exX exY none _ exE_outs exData (by omega) rfl [5, 6] [1/4, 1/2] (by simp)).1 ⟨by simp, rfl, by simp⟩⟩

-- C178: the point frame of two rows and three targets
example : ∃ s f, fit exE ⟨1, true, none⟩ () () 3 exX exY none = .ok s ∧ predict exE ⟨1, true, none⟩ s [5, 6] ⟨none, none⟩ = .ok (.point 2 3 f) ∧
    f 1 2 = 6 + 20 + 4 := by
  obtain ⟨f, h1, h2⟩ := C178_point exE ⟨1, true, none⟩ () () 3 exX exY none _ exE_outs exData rfl [5, 6] (Or.inl (by omega))
  refine ⟨_, f, rfl, h1, ?_⟩
  rw [h2 1 2 (by simp) (by omega)]
  decide +kernel

-- C178: one target and two rows
example : ∃ s, fit exE ⟨0, true, none⟩ () () 1 exX [[1], [2], [3], [4]] none = .ok s ∧ predict exE ⟨0, true, none⟩ s [5, 6] ⟨none, none⟩ = .error .valueError := by
  refine ⟨_, rfl, C178_one_target exE ⟨0, true, none⟩ () () exX [[1], [2], [3], [4]] none _ exE_outs (by unfold Data; decide +kernel) rfl [5, 6] (by simp)⟩

-- C179: the word 'mean' and a period
example : ∃ s, fit exE ⟨1, false, none⟩ () () 3 exX exY none = .ok s ∧ predict exE ⟨1, false, none⟩ s [5, 6] ⟨some .word, none⟩ = .error .typeError ∧
    predict exE ⟨1, false, none⟩ s [5, 6] ⟨none, some 48⟩ = .error .typeError := by
  refine ⟨_, rfl, C179_mean_word exE ⟨1, false, none⟩ () () 3 exX exY none _ exE_outs exData (by omega) rfl [5, 6], ?_⟩
  rw [C179_period]; simp

example : (match fit exE ⟨0, false, none⟩ () () 3 exX exY none with
    | .ok s => (match predict exE ⟨0, false, none⟩ s [5, 6] ⟨some (.levels [1/2]), some 48⟩ with | .ok (.quant _ _ _ f) => decide (f 0 1 0 = 5 + 1/2 + 10 + 15) | _ => false)
    | .error _ => false) = true := by decide +kernel

-- C180: weights
def exFitMean (n : ℕ) (v : Option ℚ) (w : Option (List ℚ)) (j : ℕ) : Option ℚ :=
  match fit exE ⟨n, true, v⟩ () () 3 exX exY w with
  | .error _ => none
  | .ok s =>
    match predict exE ⟨n, true, v⟩ s [5, 6] ⟨none, none⟩ with
    | .ok (.point 2 3 f) => some (f 0 j)
    | _ => none

example : exFitMean 0 none (some [7]) 0 = exFitMean 0 none none 0 ∧ (exFitMean 0 none none 0).isSome = true ∧
    exFitMean 1 none (some [7, 7, 7, 7]) 0 ≠ exFitMean 1 none none 0 ∧ exFitMean 1 none (some [7, 7, 7, 7]) 1 = exFitMean 1 none none 1 ∧
    exFitMean 1 (some (1/2)) (some [7, 7, 7, 7]) 0 = none ∧ (exFitMean 1 (some (1/2)) (some [7, 7]) 0).isSome = true := by decide +kernel

example : fit exE ⟨1, true, some (1/2)⟩ () () 3 exX exY (some [7, 7, 7, 7]) = .error .valueError :=
  C180_validation exE ⟨1, true, some (1/2)⟩ () () 3 exX exY [7, 7, 7, 7] (by simp) (by simp) (by decide +kernel) (by decide +kernel) rfl

-- C181: a depth of 3 and four jobs
def exA : String → Val := fun k => if k = "max_depth" then .num 3 else if k = "n_jobs" then .num 4 else if k = "n_estimators" then .num 100 else .none

example : ¬ Has (qrfPars exA) "max_depth" (.num 3) ∧ Has (qrfPars exA) "n_estimators" (.num 100) ∧ Has (globalPars 8 (qrfPars exA)) "n_jobs" (.num 32) ∧
    Has (qrfPars exA) "default_quantiles" (.str "mean") := by
  refine ⟨(C181_no_depth exA _ 8).1, ((C181_passed exA "n_estimators" (by simp [passed]) _ 8).1).2 (by simp [exA]), ?_, (C181_levels exA _).2 (Or.inl ⟨by simp [exA], rfl⟩)⟩
  have := (C181_n_jobs exA 4 8 (by simp [exA])).2
  have e : (if (0 : ℚ) < 4 then (4 : ℚ) * 8 else 4) = 32 := by norm_num
  rw [e] at this
  exact this

end PyF.Qrf
