import Verif.FmtNorm.Props

/-! Concrete inputs for the theorems of `Props`. -/

namespace PyF.FmtNorm

open PyF PyF.Names PyF.Normalize

/-- One normalised target `l`; the value is divided by the row's normaliser. -/
def exS : Setting ℚ := { norm := some (fun m v => v / m), denorm := some (fun m v => v * m), targetNames := ["l".toList], metaCols := ["l_1".toList], rows := [2, 4] }
/-- Two transformers: one on the target, one on the temperature. -/
def exMs : List Meta := [[("l_0".toList, "l".toList)], [("t_0".toList, "t".toList)]]
/-- Features: normaliser, lag of the target, lag of the temperature, raw hour. -/
def exX : Frame := [("mean".toList, [2, 4]), ("l_0".toList, [6, 8]), ("t_0".toList, [10, 20]), ("hour".toList, [1, 2])]

-- C147: the temperature is divided by the mean of the load
example : (match normalizeBoth exS ["mean".toList] exMs none exX none with | .ok (_, x) => x.map Prod.snd = [[2, 4], [3, 2], [5, 5], [1, 2]] | .error _ => false) = true := by decide +kernel
example : exS.targetNames.dedup.length = 1 := by decide +kernel
example : (exMs.flatten.map Prod.fst).Nodup := by decide +kernel
example : WF exS.rows.length exX := by unfold WF; decide +kernel
example : Derived exMs "t_0".toList ∧ ¬ Related exS.targetNames exMs "t_0".toList := by
  constructor
  · exact ⟨_, List.mem_cons_of_mem _ List.mem_cons_self, _, List.mem_cons_self⟩
  · rintro ⟨m, hm, t, ht, h⟩
    simp only [exMs, exS, List.mem_cons, List.not_mem_nil, or_false] at hm ht
    subst ht
    rcases hm with rfl | rfl
    · exact absurd h (by decide +kernel)
    · exact absurd h (by decide +kernel)
-- C147 (right): the target's features only
example : ∀ m ∈ exMs.take 1, ∀ p ∈ m, p.2 ∈ exS.targetNames := by decide +kernel
-- C147: two normalised targets normalise every feature twice
example : (match normalizeBoth { exS with targetNames := ["l".toList, "p".toList] } ["mean".toList] exMs none exX none with
  | .ok (_, x) => x.map Prod.snd = [[2, 4], [3 / 2, 1 / 2], [5 / 2, 5 / 4], [1, 2]] | .error _ => false) = true := by decide +kernel

-- C148: all features there; one dropped
example : (match denormalizeBoth exS ["mean".toList] exMs exX [("l_1".toList, [3, 2])] with | .ok y => y = [("l_1".toList, [6, 8])] | .error _ => false) = true := by decide +kernel
example : (match denormalizeBoth exS ["mean".toList] exMs (exX.eraseIdx 2) [("l_1".toList, [3, 2])] with | .ok _ => false | .error e => e = .keyError) = true := by decide +kernel
example : Derived exMs "t_0".toList ∧ ¬ Has (exX.eraseIdx 2) "t_0".toList := by
  constructor
  · exact ⟨_, List.mem_cons_of_mem _ List.mem_cons_self, _, List.mem_cons_self⟩
  · rintro ⟨col, h⟩
    have : "t_0".toList ∈ (exX.eraseIdx 2).map Prod.fst := List.mem_map.2 ⟨_, h, rfl⟩
    exact absurd this (by decide +kernel)

-- C149
example : ∃ new, addNormalizer [] ["l".toList] (.array [24]) "mean".toList = .ok new ∧ new ≠ [] := ⟨[⟨"mean".toList, "l".toList, some [24]⟩], rfl, by simp⟩
example : addNormalizer [] ["l".toList] (.list [24]) "mean".toList = .error .typeError := rfl
example : addNormalizer [⟨"mean".toList, "l".toList, none⟩] ["l".toList, "p".toList] (.list [1, 2]) "mean".toList = .ok [⟨"mean".toList, "l".toList, none⟩] := rfl
example : addNormalizer [] ["l".toList] (.array [-1]) "mean".toList = .error .assertionError := rfl

-- C150
def exWs : List Win := [⟨"l".toList, -3600, 0⟩, ⟨"l".toList, -7200, -3600⟩, ⟨"t".toList, 0, 900⟩]
example : timeLims exWs "l".toList = some (-7200, 0) := by decide +kernel
example : extremes exWs = some (-7200, 900) := by decide +kernel
example : timeLims exWs "z".toList = none := by decide +kernel
example : timeTables true [⟨none, exWs⟩] [⟨none, []⟩] false = .ok exWs := rfl
example : timeTables true [⟨some exWs, exWs⟩] [⟨none, exWs⟩] true = .error .attributeError := rfl

-- C151
example : normFreq "15T".toList = "15min".toList := by decide +kernel
example : normFreq "1H30T".toList = "1h30min".toList := by decide +kernel
example : normFreq "15MIN".toList = "15MIns".toList := by decide +kernel
example : normFreq "10NS".toList = "10nss".toList := by decide +kernel
example : ∀ c ∈ "15".toList, c.isDigit := by decide +kernel

end PyF.FmtNorm
