import Verif.TreeGen.Props
import Verif.TreeGen.Stuck

/-! Instances of the theorems on start trees and initial values. -/

namespace PyF.TreeGen
open PyF Scenred TreeBuild TreeInit

/-- Three scenarios over two steps. -/
def exS : ℕ → Fin 3 → ℚ := fun t => if t = 0 then ![1, 2, 3] else ![10, 20, 30]

/-- A start tree with values of its own. -/
def exA : List (Node ℚ) := [⟨0, 1, 7, none⟩, ⟨1, 1 / 2, 8, some 0⟩, ⟨1, 1 / 2, 9, some 0⟩]

def exB : List (Node ℚ) := [⟨0, 1, -7, none⟩, ⟨1, 1 / 2, -8, some 0⟩, ⟨1, 1 / 2, -9, some 0⟩]

def exF : List (Node ℚ) := [⟨0, 1, 0, none⟩, ⟨1, 1 / 2, 0, some 0⟩, ⟨1, 1 / 2, 0, some 0⟩]

theorem exF_gen : genTree [1, 2] = .ok exF := by
  have h : (genTree [1, 2]).toOption = some exF := by decide +kernel
  cases hg : genTree [1, 2] with
  | error e => rw [hg] at h; cases h
  | ok N => rw [hg] at h; cases h; rfl

theorem exF_wf : WF exF := (C52_quantile_tree [2] (by simp) exF exF_gen).1

theorem exA_wf : WF exA := sameShape_wf (A := exF) (B := exA) rfl exF_wf

/-- C234 with two start trees that differ in all values. -/
example : ∃ a b, quantileTree (fun _ _ _ => 0) 2 exS none none (some exA) = .ok a ∧ quantileTree (fun _ _ _ => 1) 2 exS (some [1, 3]) none (some exB) = .ok b ∧ a.vals = b.vals ∧ a.scens = b.scens := by
  obtain ⟨⟨a, b, h1, h2, _, _, _, _, h7⟩, _⟩ := C234_start_tree_shape_only (fun _ _ _ => 0) (fun _ _ _ => 1) 2 (by norm_num) exS none none (some [1, 3]) none exA exB exA_wf (by decide) rfl
  have := h7 (by decide)
  exact ⟨a, b, h1, h2, this.1, this.2⟩

/-- The result: the values of the start tree are gone. -/
example : (quantileTree (fun _ _ _ => 0) 2 exS none none (some exA)).toOption.map (fun o => (o.vals, o.scens, o.idxs)) =
    some ([2, 5 / 3, 7 / 3], [[2, 5 / 3], [2, 7 / 3]], [[0, 1], [0, 2]]) := by decide +kernel

/-- A horizon of one step: the nodes behind it keep their values. -/
example : (quantileTree (fun _ _ _ => 0) 1 exS none none (some exA)).toOption.map (fun o => o.vals) = some [2, 8, 9] := by decide +kernel

/-- `ScenredTree` on the same start tree, with the tree of the reduction being `exF`: the start tree is not used. -/
example : (scenredTree (fun _ => .ok exF) (fun _ _ _ => 0) 4 2 (some [1, 2]) none (some exA)).toOption.map (fun o => o.vals) = some [0, 0, 0] := by decide +kernel

/-- C235 on a new tree: the scenarios rise, the tree does not follow. -/
example : ∃ o, quantileTree (fun _ _ _ => 0) 2 exS (some [1, 2]) none (some exF) = .ok o ∧
    ∀ (c : ℕ) (vs : List ℚ) (t : ℕ) (v : ℚ), o.scens[c]? = some vs → vs[t]? = some v → 1 ≤ t → t < 2 → ∀ s, v < exS t s := by
  obtain ⟨o, h1, _, _, h4⟩ := C235_range_one_step_late (fun _ _ _ => 0) 2 exS (by norm_num) (some [1, 2]) none (some exF) exF rfl exF_wf (by decide)
  refine ⟨o, h1, h4 ?_⟩
  intro t s s' ht
  obtain rfl : t = 0 := by omega
  revert s s'
  decide +kernel

/-- Without a start tree and with other numbers of scenarios and nodes. -/
example : (chooseTree genTree (fun _ _ _ => 0) 5 2 (some [1, 2]) none none).toOption = some exF := by decide +kernel

/-- C236 on a new tree. -/
example : ∃ o, baseGen genTree (fun _ _ _ => 0) 5 2 (some [1, 2]) none none = .ok o ∧ o.vals = [0, 0, 0] ∧ initOut (m := 5) .other 2 (fun t _ => t + 1) o = .ok o := by
  have h : (baseGen genTree (fun _ _ _ => 0) 5 2 (some [1, 2]) none none).toOption.map (fun o => o.vals) = some [0, 0, 0] := by decide +kernel
  cases hg : baseGen genTree (fun _ _ _ => 0) 5 2 (some [1, 2]) none none with
  | error e => rw [hg] at h; cases h
  | ok o =>
    rw [hg] at h
    exact ⟨o, rfl, Option.some.inj h, (C236_other_texts_mean_zero (m := 5) (fun _ _ _ => 0) 2 (fun t _ => t + 1) (some [1, 2]) none o hg).1⟩

/-- With values of its own a start tree is kept by other texts and cleared by `'zero'`. -/
example : ((describe exA).toOption.bind (fun o => (initOut .zero 2 exS o).toOption)).map (fun o => (o.vals, o.scens)) = some ([0, 0, 0], [[0, 0], [0, 0]]) ∧
    ((describe exA).toOption.bind (fun o => (initOut .other 2 exS o).toOption)).map (fun o => (o.vals, o.scens)) = some ([7, 8, 9], [[7, 8], [7, 9]]) := by decide +kernel

end PyF.TreeGen

namespace PyF.TreeLoss
open PyF PyF.TreeBuild

/-- A root and two leaves. -/
def exIdxStuck : Nat → Fin 2 → Fin 3 := fun t p => if t = 0 then 0 else if p = 0 then 1 else 2

/-- C237 from zeros: two scenarios that part at the second step are not told apart. -/
example : ∃ out, diffTree (metricLoss (fun t : Fin 2 => exIdxStuck t) (![![0, 0], ![-1, 1]] : Fin 2 → Fin 2 → ℚ)) (gradLoss (fun t : Fin 2 => exIdxStuck t) ![![0, 0], ![-1, 1]]) exIdxStuck (fun _ => 0) (fun _ => 0)
      none 2 1 100 (1 / 1000) = .ok out ∧ out.vals 1 = out.vals 2 := by
  obtain ⟨out, j, h1, _, h3, _, _⟩ := C237_never_branches exIdxStuck (![![0, 0], ![-1, 1]] : Fin 2 → Fin 2 → ℚ) (fun _ => 0) (fun _ => 0) (fun _ => 0) none 1 100 (1 / 1000) (by norm_num)
    (by norm_num) (by norm_num) (by decide) (by decide) (fun _ _ => rfl)
  exact ⟨out, h1, h3 1 0 1⟩

/-- The two leaves placed at the scenarios would have loss zero. -/
example : metricLoss (fun t : Fin 2 => exIdxStuck t) (![![0, 0], ![-1, 1]] : Fin 2 → Fin 2 → ℚ) ![0, -1, 1] = 0 := by
  rw [(C224_loss (fun t : Fin 2 => exIdxStuck t) (![![0, 0], ![-1, 1]] : Fin 2 → Fin 2 → ℚ) ![0, -1, 1] (by norm_num)).2.2.2]
  intro k
  refine ⟨k, ?_⟩
  revert k
  decide +kernel

end PyF.TreeLoss
