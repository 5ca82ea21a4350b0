import Verif.TreeInit.Props

/-! Concrete instances. -/

namespace PyF.TreeInit
open PyF TreeBuild

/-- A coarse rounding of the progression: 0 up to the last step. -/
def coarse : Prog := fun m T i => if 1 ≤ i ∧ i + 1 = T then m else 0

/-- The progression of six steps for 3 geometric steps, and anything of the right kind elsewhere. -/
def table : Prog := fun m T i => if m = 3 ∧ T = 6 then [0, 0, 0, 0, 1, 3].getD i 0 else coarse m T i

theorem coarse_rounded : Spec.Rounded coarse := by
  intro m T _
  refine ⟨?_, by simp [coarse], ?_⟩
  · intro i j hij hj
    unfold coarse
    split_ifs <;> omega
  · intro hT
    left
    unfold coarse
    rw [if_pos ⟨by omega, by omega⟩]

-- C212: 40 scenarios
example : (match initNodes table 40 6 none none with | .ok l => l | _ => []) = [1, 16, 16, 16, 16, 16] := by decide +kernel
example : stepsOf 40 = [4, 8, 16] := by decide +kernel
example : (match initNodes coarse 40 6 none none with | .ok l => l | _ => []) = [1, 16, 16, 16, 16, 16] := by decide +kernel
example : (match initNodes (fun _ _ i => [0, 1, 2, 3].getD i 0) 40 4 none none with | .ok l => l | _ => []) = [1, 8, 16, 16] := by decide +kernel
example : ∃ ns, initNodes coarse 40 6 none none = .ok (1 :: ns) ∧ ns.length + 1 = 6 := by
  obtain ⟨ns, h, -, -, h2, -⟩ := C212_default_nodes coarse coarse_rounded 40 6 (by norm_num) (by norm_num)
  exact ⟨ns, h, h2 (by norm_num)⟩
example : ∃ ns, initNodes exactProg 100 24 none none = .ok (1 :: ns) ∧ ns.length + 1 = 24 ∧ ns.getLast? = some 32 := by
  obtain ⟨ns, h, -, -, h2, -, h3⟩ := C212_default_nodes exactProg C212_exact 100 24 (by norm_num) (by norm_num)
  refine ⟨ns, h, h2 (by norm_num), ?_⟩
  rw [h3 (by norm_num), show Nat.log 2 100 = 6 by decide +kernel]
  rfl
-- 25 scenarios of 24 steps: 25 levels
example : ∃ ns, initNodes exactProg 25 24 none none = .ok (1 :: ns) ∧ ns.length = 24 := by
  obtain ⟨ns, h, -, -, -, h2, -⟩ := C212_default_nodes exactProg C212_exact 25 24 (by norm_num) (by norm_num)
  exact ⟨ns, h, h2 (by norm_num)⟩
-- C213: five scenarios, the object's own numbers
example : initNodes exactProg 5 3 none (some [1, 2, 4]) = .error .indexError :=
  ((C213_few_scenarios exactProg C212_exact 5 3 (by norm_num) 1 [2, 4] rfl (by norm_num)).1 (by norm_num)).1 _
example : initNodes exactProg 5 3 (some [1, 2, 4]) none = .ok [1, 2, 4] :=
  ((C213_few_scenarios exactProg C212_exact 5 3 (by norm_num) 1 [2, 4] rfl (by norm_num)).1 (by norm_num)).2 _
example : initNodes exactProg 10 3 none (some [3, 2, 4]) = .ok [1, 2, 4] :=
  (C213_few_scenarios exactProg C212_exact 10 3 (by norm_num) 3 [2, 4] rfl (by norm_num)).2 (by norm_num) none _ (.inr ⟨rfl, rfl⟩)

end PyF.TreeInit
