import Verif.HW.Gauge

namespace PyF.HW

def gCfg : Cfg := { p1 := 2, p2 := 1, nsa := 2, lo := none, hi := none, store := id }
def gPars : Pars := { alpha := 1/2, beta := 0, g1 := 1/4, g2 := 1/8 }

/-- Five units moved from the seasons (3 and 2) to the level: same forecasts. -/
example : Known (num 10 1 [1, -1] [4]) ∧ Moved 3 2 (num 10 1 [1, -1] [4]) (num 15 1 [-2, -4] [2]) ∧
    (predict gCfg gPars (num 10 1 [1, -1] [4]) [some 20, some 17]).toOption.map Prod.snd = (predict gCfg gPars (num 15 1 [-2, -4] [2]) [some 20, some 17]).toOption.map Prod.snd := by
  refine ⟨by unfold Known; decide +kernel, ?_, by decide +kernel⟩
  refine ⟨?_, rfl, ?_, ?_⟩ <;> decide +kernel

/-- C303 (constraints): with a lower bound 0 on the seasons the same move changes the forecasts. -/
theorem C303_constrained : Moved 3 2 (num 10 1 [1, -1] [4]) (num 15 1 [-2, -4] [2]) ∧
    (predict { gCfg with lo := some 0 } gPars (num 10 1 [1, -1] [4]) [some 20, some 17]).toOption.map Prod.snd ≠ (predict { gCfg with lo := some 0 } gPars (num 15 1 [-2, -4] [2]) [some 20, some 17]).toOption.map Prod.snd := by
  refine ⟨⟨?_, rfl, ?_, ?_⟩, ?_⟩ <;> decide +kernel

/-- Two objects whose levels differ by 8: after three observations the forecasts differ by one eighth of it. -/
example : ∃ r r' P Q f g, predict gCfg { gPars with g1 := 0, g2 := 0 } (num 10 1 [1, -1] [4]) ([20, 17, 19].map some) = .ok (r, P) ∧
    predict gCfg { gPars with g1 := 0, g2 := 0 } (num 18 1 [1, -1] [4]) ([20, 17, 19].map some) = .ok (r', Q) ∧ P.getLast? = some f ∧ Q.getLast? = some g ∧
    ∀ h : Nat, h < 2 → ∃ u v : ℚ, f[h]? = some (some u) ∧ g[h]? = some (some v) ∧ v - u = 1 := by
  obtain ⟨r, r', P, Q, f, g, e1, e2, e3, e4, hg⟩ := C303_gap gCfg { gPars with g1 := 0, g2 := 0 } rfl rfl rfl rfl rfl 10 18 1 1 [1, -1] [4] rfl rfl (by decide) (by decide) [20, 17, 19] (by simp)
  refine ⟨r, r', P, Q, f, g, e1, e2, e3, e4, fun h hh => ?_⟩
  obtain ⟨u, v, eu, ev, hd⟩ := hg h hh
  refine ⟨u, v, eu, ev, ?_⟩
  rw [hd]
  norm_num [gPars]

end PyF.HW
