import Verif.Denorm.Props
import Mathlib.Tactic.NormNum
import Mathlib.Tactic.FieldSimp

/-! Examples: a target of two steps, divided by the moving mean of the row. -/

namespace PyF.Denorm

open PyF PyF.Names PyF.Normalize PyF.FmtNorm

def exX : Frame := [("mean".toList, [10, 20]), ("load_lag_001".toList, [1, 1])]

def exF : Formatter ℚ :=
  { norm := some (fun m v => if m = 0 then v else v / m), denorm := some (fun m v => if m = 0 then v else v * m), targetNames := ["load".toList],
    metaCols := ["load_lag_-001".toList, "load_lag_-002".toList], names := ["mean".toList], ms := [[("load_lag_001".toList, "load".toList)]],
    rowsOf := fun x => ((x.lookup "mean".toList).getD []) }

def exY0 : Frame := [("load_lag_-001".toList, [12, 20]), ("load_lag_-002".toList, [13, 30])]
def exY : Frame := [("load_lag_-001".toList, [6 / 5, 1]), ("load_lag_-002".toList, [13 / 10, 3 / 2])]
def exRaw : Frame → Frame := fun _ => [("load_lag_-001".toList, [1, 1]), ("load_lag_-002".toList, [1, 1])]

theorem exUsable : Usable exF (fun m v => if m = 0 then v else v / m) (fun m v => if m = 0 then v else v * m) exX where
  norm := rfl
  denorm := rfl
  some_target := by decide
  inverse := by
    intro r _ v
    by_cases hr : r = 0
    · simp [hr]
    · simp only [if_neg hr]; field_simp
  names := by
    intro n hn
    rw [show exF.names = ["mean".toList] from rfl, List.mem_singleton] at hn
    exact ⟨[10, 20], by rw [hn]; decide +kernel⟩
  features := by
    intro m hm c n hc
    rw [show exF.ms = [[("load_lag_001".toList, "load".toList)]] from rfl, List.mem_singleton] at hm
    subst hm
    rw [List.mem_singleton, Prod.mk.injEq] at hc
    exact ⟨[1, 1], by rw [hc.1]; decide +kernel⟩

theorem exAligned0 : Aligned exF exX exY0 := by unfold Aligned; decide +kernel
theorem exAlignedR : Aligned exF exX (exRaw exX) := by unfold Aligned; decide +kernel

theorem exNormalised : Normalised exF (fun m v => if m = 0 then v else v / m) exX exY0 exY := by
  refine ⟨?_, ?_⟩
  · intro c hc
    have : c = "load_lag_-001".toList ∨ c = "load_lag_-002".toList := by simpa [exF] using hc
    rcases this with rfl | rfl
    · exact ⟨[12, 20], by decide +kernel⟩
    · exact ⟨[13, 30], by decide +kernel⟩
  · refine List.Forall₂.cons ⟨rfl, by decide +kernel⟩ (List.Forall₂.cons ⟨rfl, by decide +kernel⟩ List.Forall₂.nil)

-- forecasts of a regressor that puts out 1 everywhere: the moving mean
example : (predict ⟨some exF, .regressor, exRaw⟩ exX).toOption = some [("load_lag_-001".toList, [10, 20]), ("load_lag_-002".toList, [10, 20])] := by decide +kernel
example : (fitErrs ⟨some exF, .regressor, exRaw⟩ exX exY).toOption = some [[2, 0], [3, 10]] := by decide +kernel
example : ∃ p e, predict ⟨some exF, .regressor, exRaw⟩ exX = .ok p ∧ fitErrs ⟨some exF, .regressor, exRaw⟩ exX exY = .ok e ∧ Differences exY0 p e := by
  obtain ⟨p, e, h1, h2, h3, -⟩ := C258_regressor exF _ _ exX exUsable exRaw
    (by
      intro c hc
      have : c = "load_lag_-001".toList ∨ c = "load_lag_-002".toList := by simpa [exF] using hc
      rcases this with rfl | rfl
      · exact ⟨[1, 1], by decide +kernel⟩
      · exact ⟨[1, 1], by decide +kernel⟩)
    exAlignedR exY0 exY exAligned0 exNormalised
  exact ⟨p, e, h1, h2, h3⟩
example : predict ⟨some exF, .regressor, fun _ => exY⟩ exX = .ok exY0 := C258_regressor_exact exF _ _ exX exUsable (fun _ => exY) exY0 exY exAligned0 exNormalised rfl

-- a network that reproduces the normalised target exactly: forecast 1.2 for 12, errors 10.8, ...
example : (fitErrs ⟨some exF, .network, fun _ => exY⟩ exX exY).toOption = some [[54 / 5, 19], [117 / 10, 57 / 2]] := by decide +kernel
example : predict ⟨some exF, .network, fun _ => exY⟩ exX ≠ .ok exY0 := by
  intro h
  have := ((C258_network exF _ _ exX exUsable (fun _ => exY) exY0 exY exAligned0 exNormalised).2.2 rfl).1 h ("load_lag_-001".toList, [12, 20]) (by decide +kernel) 0 10 12 rfl rfl
  revert this
  decide +kernel

example : predict (N := ℚ) ⟨none, .network, exRaw⟩ exX = .ok (exRaw exX) := (C258_plain (N := ℚ) none (fun _ h => by cases h) .network exRaw exX exY).1

-- a persistent benchmark with the same formatter
example : persistentFit (some exF) exX [(0, [12, 20])] = .error .keyError := by
  have h := C259_persistent exF _ _ rfl rfl (by decide) exX [(0, [12, 20])]
  exact h.2 (fun e => absurd (h.1.1 e).1 (by decide +kernel))

end PyF.Denorm
