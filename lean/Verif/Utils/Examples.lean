import Verif.Utils.Props
import Verif.Utils.FreqProps

/-! Concrete instances of the hypotheses of C162–C164. -/

namespace PyF.Utils
open PyF

/-- Two rows, three steps, two levels. -/
def exT : Tensor := ⟨2, 3, 2, fun r p q => (100 * r + 10 * p + q : ℕ)⟩

/-- Flat contents of a converted array. -/
def cells (e : Except PyErr Tensor) : Option (Nat × Nat × Nat × List ℚ) :=
  match e with
  | .error _ => none
  | .ok t => some (t.d0, t.d1, t.d2, (List.range t.d0).flatMap fun r => (List.range t.d1).flatMap fun p => (List.range t.d2).map fun q => t.val r p q)

def exCells (first : List Nat) (second : List String) (z : Bool) : Option (Nat × Nat × Nat × List ℚ) :=
  match fromTensor exT 2 first second with
  | .error _ => none
  | .ok f => cells (toTensor f z)

/-- C162: the array comes back with `zero_first=False`. -/
example : exCells [0, 1, 2] ["q10", "q90"] false = some (2, 3, 2, [0, 1, 10, 11, 20, 21, 100, 101, 110, 111, 120, 121]) := by decide +kernel
/-- C162: the default is transposed. -/
example : exCells [0, 1, 2] ["q10", "q90"] true = some (2, 2, 3, [0, 10, 20, 1, 11, 21, 100, 110, 120, 101, 111, 121]) := by decide +kernel
example : ([0, 1, 2] : List Nat).length = exT.d1 ∧ (["q10", "q90"] : List String).length = exT.d2 ∧ ([0, 1, 2] : List Nat).Nodup ∧
    (["q10", "q90"] : List String).Nodup ∧ 0 < exT.d1 ∧ 0 < exT.d2 := by decide +kernel

/-- C162: of the slices of a repeated label the last is kept. -/
example : (slices 3 ["a", "b", "a"]) = [("a", 2), ("b", 1)] := by decide +kernel
/-- C162: too few labels: the last slice is left out. -/
example : exCells [0, 1, 2] ["q10"] false = some (2, 3, 1, [0, 10, 20, 100, 110, 120]) := by decide +kernel

/-- C163: a repeated step label gives three rows of two steps. -/
example : exCells [0, 1, 1] ["q10", "q90"] false = some (3, 2, 2, [0, 20, 10, 1, 11, 100, 21, 110, 120, 111, 101, 121]) := by decide +kernel
example : ¬ ([0, 1, 1] : List Nat).Nodup := by decide +kernel

def exF : Frame String Nat := ⟨2, [("q10", 0), ("q10", 1), ("q90", 0), ("q90", 1)], 2, 2, fun r c => (10 * r + c : ℕ)⟩
example : 0 < exF.n ∧ 0 < exF.lev0 ∧ 0 < exF.lev1 ∧ exF.cols.length = exF.lev0 * exF.lev1 := by decide +kernel
/-- C163: one level selected from two: two rows become one. -/
example : cells (toTensor (select exF [0, 1]) true) = some (1, 2, 2, [0, 1, 10, 11]) := by decide +kernel
/-- C163: one column selected of four: failure. -/
example : cells (toTensor (select exF [0]) true) = none := by decide +kernel
/-- C163: columns in another order: the entries follow the positions. -/
example : cells (toTensor (select exF [3, 1, 2, 0]) true) = some (2, 2, 2, [3, 1, 2, 0, 13, 11, 12, 10]) := by decide +kernel

/-- C164: an ordering function with the assumed properties exists. -/
example : ∃ argsort : List ℝ → List Nat, ∀ v, ArgSort v (argsort v) := by
  classical
  refine ⟨fun v => (List.range v.length).insertionSort (fun i j => v.getD i 0 ≤ v.getD j 0), fun v => ?_⟩
  have ht : Std.Total (fun i j : ℕ => v.getD i 0 ≤ v.getD j 0) := ⟨fun a b => le_total _ _⟩
  have htr : IsTrans ℕ (fun i j : ℕ => v.getD i 0 ≤ v.getD j 0) := ⟨fun a b c => le_trans⟩
  exact ⟨List.perm_insertionSort _ _, List.pairwise_insertionSort _ _⟩

/-- C164: a tone with three cycles in a window of 24 is reported as 4. -/
example (argsort : List ℝ → List Nat) (hs : ∀ v, ArgSort v (argsort v)) : importantFrequencies argsort (tone 24 5 3 1) 1 = [4] :=
  C164_off_by_one argsort hs 24 5 (by norm_num) 3 1 (by norm_num) (by norm_num)

end PyF.Utils
