import Verif.PredTrees.Calls

/-! Concrete instances of the theorems on `predict_trees`. -/

namespace PyF.PredTrees.Examples
open PyF ScenGen Scenred Spec

/-- A tree with a root and two leaves. -/
def tree : Tree ℚ := [⟨0, 1, some 0, none⟩, ⟨1, 1 / 2, some (-1), some 0⟩, ⟨1, 1 / 2, some 1, some 0⟩]

/-- The same tree for every hour. -/
def trees : ℕ → Option (Tree ℚ) := fun _ => some tree

/-- Two rows, stamps are hours. -/
def fc : Forecast ℕ ℚ := { idx := [3, 4], preds := [[10], [20]], quantiles := [[[9, 11]], [[19, 21]]] }

def hr : ℕ → ℕ := fun s => s % 24

def draws : Draws ℚ := { levels := [1 / 10, 9 / 10], steps := 1, dim := 1, u := .ok (fun _ _ _ => 1 / 2), ini := fun _ _ => 0, noise := fun _ _ _ => 0 }

/-- A builder that records rate and numbers of nodes in a tree. -/
def body : ℚ → List ℕ → Scens ℚ → Except PyErr (Tree ℚ) := fun r ns sc => .ok [⟨0, r, some (sc.val 0 0), none⟩, ⟨1, ns.sum, some (sc.val 1 0), some 0⟩]

def gen (n : ℕ) := genTree (.ok [1, 2]) body n

def fresh : Obj := { rate := none, own := none }

def on : Cfg := { online := true, additional := true, parallel := false, cpu := 4 }

def off : Cfg := { online := false, additional := true, parallel := false, cpu := 4 }

def opt (x : WithBot ℚ) : Option ℚ := x

/-- Values of the nodes of all trees. -/
def vals : Except PyErr (Out ℚ × Obj × Option (List ℕ)) → Option (List (List (Option ℚ)))
  | .ok (.list ts, _, _) => some (ts.map (fun t => t.map (fun y => opt y.v)))
  | .ok (.one t, _, _) => some [t.map (fun y => opt y.v)]
  | .error _ => none

-- the root: 0 online, the first prediction without online reduction
example : vals (predictTrees on (gen 5) fresh hr trees none .absent fc draws) = some [[some 0, some 10], [some 0, some 20]] := by decide +kernel

example : vals (predictTrees off (gen 5) fresh hr trees none .absent fc draws) = some [[some 10, some 9, some 11], [some 20, some 19, some 21]] := by decide +kernel

-- a bare number for two rows: refused online
example : vals (predictTrees on (gen 5) fresh hr trees none (.scalar 7) fc draws) = none := by decide +kernel

example : vals (predictTrees off (gen 5) fresh hr trees none (.scalar 7) fc draws) = some [[some 7, some 9, some 11], [some 7, some 19, some 21]] := by decide +kernel

-- a series in another order: by position online, by label otherwise; a missing label gives NaN
example : vals (predictTrees on (gen 5) fresh hr trees none (.series [(4, 1), (5, 2)]) fc draws) = some [[some 1, some 10], [some 2, some 20]] := by decide +kernel

example : vals (predictTrees off (gen 5) fresh hr trees none (.series [(4, 1), (5, 2)]) fc draws) = some [[none, some 9, some 11], [some 1, some 19, some 21]] := by decide +kernel

-- the hypotheses of the theorems
theorem shaped : Shaped draws.levels draws.steps fc.quantiles := by
  intro q hq
  simp [fc] at hq
  rcases hq with rfl | rfl <;> simp [draws]

example := C216_online on rfl rfl (gen 5) fresh hr trees none (.values [1, 2]) fc draws rfl rfl shaped _ rfl

example : ∀ n, given (.values [1, 2] : InitObs ℕ ℚ) = some n → n = fc.idx.length := by
  intro n h; simp [given] at h; simp [fc, ← h]

example := C216_offline off rfl rfl (gen 5) fresh hr (fun s => Nat.mod_lt s (by norm_num)) trees (fun _ _ => rfl) (.series [(3, 1), (4, 2)]) fc draws rfl (by simp [fc])

example : Attachable fc.idx.length (.series [(3, 1), (4, 2)] : InitObs ℕ ℚ) := by simp [Attachable]

example := C216_ignored { on with additional := false } rfl (gen 5) fresh hr trees none .absent (.values [1]) fc draws

example := C217_offline off rfl (gen 5) fresh hr trees [1, 3] .absent fc draws

-- a row alone gives a bare tree
def fc1 : Forecast ℕ ℚ := { idx := [3], preds := [[10]], quantiles := [[[9, 11]]] }

example : (match predictTrees off (gen 5) fresh hr trees none .absent fc1 draws with | .ok (.one t, _, _) => some t.length | _ => none) = some 3 := by decide +kernel

/-! Calls. -/

/-- A builder on numbers that returns rate, numbers of nodes and input. -/
def body2 : ℚ → List ℕ → ℕ → Except PyErr (ℚ × List ℕ × ℕ) := fun r ns s => .ok (r, ns, s)

def g2 (n : ℕ) := genTree (.ok [1, 2]) body2 n

/-- Trees, rate and caller's numbers afterwards. -/
def shown : Except PyErr (List (ℚ × List ℕ × ℕ) × Obj × Option (List ℕ)) → Option (List (ℚ × List ℕ × ℕ) × Option ℚ × Option (List ℕ))
  | .ok (ts, o, ns) => some (ts, o.rate, ns)
  | .error _ => none

-- the caller's numbers are overwritten if the trees are built one after the other
example : shown (onlineTrees 4 false false (g2 5) fresh (some [4, 8]) [7, 9]) = some ([(1 / 5, [1, 8], 7), (1 / 5, [1, 8], 9)], some (1 / 5), some [1, 8]) := by decide +kernel

example : shown (onlineTrees 4 false true (g2 5) fresh (some [4, 8]) [7, 9]) = some ([(1 / 5, [1, 8], 7), (1 / 5, [1, 8], 9)], none, some [4, 8]) := by decide +kernel

example : shown (onlineTrees 4 true false (g2 5) fresh (some [4, 8]) [7, 9]) = some ([(1 / 5, [1, 4, 8], 7), (1 / 5, [1, 4, 8], 9)], some (1 / 5), some [4, 8]) := by decide +kernel

-- two numbers and four scenarios: two ones
example : shown (onlineTrees 4 true false (g2 4) fresh (some [4, 8]) [7]) = some ([(1 / 4, [1, 1, 4, 8], 7)], some (1 / 4), some [4, 8]) := by decide +kernel

-- one processor
example : shown (onlineTrees 1 true true (g2 4) fresh (some [4, 8]) [7, 9]) = none := by decide +kernel

-- a later call with 20 scenarios after one with 5
example : shown (onlineTrees 4 false false (g2 20) { rate := some (1 / 5), own := none } (some [1, 2]) [7]) = some ([(1 / 5, [1, 2], 7)], some (1 / 5), some [1, 2]) ∧
    shown (onlineTrees 4 false false (g2 20) fresh (some [1, 2]) [7]) = some ([(1 / 10, [1, 2], 7)], some (1 / 10), some [1, 2]) := by
  constructor <;> decide +kernel

example := (C218_later_calls 4 false (.ok [1, 2]) body2 5 20 (by norm_num) (by norm_num) fresh rfl (some [4, 8]) [1, 2] [7, 9] [7] (by simp) (by simp)
  [(1 / 5, [1, 8], 7), (1 / 5, [1, 8], 9)] { rate := some (1 / 5), own := none } (some [1, 8]) [(1 / 5, [1, 2], 7)] { rate := some (1 / 5), own := none } (some [1, 2]) false).1

example : freshRate 5 ≠ freshRate 20 := by rw [Ne, freshRate_eq_iff 5 20 (by norm_num) (by norm_num)]; norm_num

end PyF.PredTrees.Examples
