import Verif.Scenred.TreeProps

/-! Concrete inputs meeting the hypotheses of the theorems on scenario reduction. -/

namespace PyF.Scenred
open PyF

/-- First index of the smallest value, as `np.argmin`. -/
def firstMin {m : Nat} (v : Fin (m + 1) → ℚ) : Fin (m + 1) :=
  (List.finRange (m + 1)).foldl (fun b k => if v k < v b then k else b) 0

theorem foldl_firstMin {m : Nat} (v : Fin (m + 1) → ℚ) (l : List (Fin (m + 1))) (b : Fin (m + 1)) :
    v (l.foldl (fun b k => if v k < v b then k else b) b) ≤ v b ∧ ∀ k ∈ l, v (l.foldl (fun b k => if v k < v b then k else b) b) ≤ v k := by
  induction l generalizing b with
  | nil => simp
  | cons a l ih =>
    simp only [List.foldl_cons]
    obtain ⟨h1, h2⟩ := ih (if v a < v b then a else b)
    have h3 : v (if v a < v b then a else b) ≤ v b ∧ v (if v a < v b then a else b) ≤ v a := by
      split
      · exact ⟨by linarith, le_refl _⟩
      · exact ⟨le_refl _, by linarith⟩
    refine ⟨h1.trans h3.1, ?_⟩
    intro k hk
    rcases List.mem_cons.1 hk with rfl | hk
    · exact h1.trans h3.2
    · exact h2 k hk

theorem firstMin_le {m : Nat} (v : Fin (m + 1) → ℚ) (k : Fin (m + 1)) : v (firstMin v) ≤ v k :=
  (foldl_firstMin v _ 0).2 k (List.mem_finRange k)

/-- City-block distance over the first `i + 1` of the steps of a table (rows: steps). -/
def cityblock {m : Nat} (S : Nat → Fin (m + 1) → ℚ) (i : Nat) (r k : Fin (m + 1)) : ℚ :=
  ((List.range (i + 1)).map (fun (t : Nat) => abs (S t r - S t k))).sum

def tableCfg {m : Nat} (T : Nat) (nodes : List Nat) (tol : ℚ) (S : Nat → Fin (m + 1) → ℚ) : Cfg (m + 1) :=
  { T := T, nodes := fun i => nodes.getD i 1, tol := tol, dist := cityblock S, argmin := firstMin, argsort0 := firstMin }

theorem tableCfg_good {m : Nat} (T : Nat) (hT : 1 ≤ T) (nodes : List Nat) (hn : ∀ x ∈ nodes, 1 ≤ x) (tol : ℚ) (S : Nat → Fin (m + 1) → ℚ)
    (hb : ∀ r k, cityblock S (T - 1) r k < infty - 1) : Good (tableCfg T nodes tol S) where
  steps := hT
  nodes i := by
    show 1 ≤ nodes.getD i 1
    rw [List.getD_eq_getElem?_getD]
    cases h : nodes[i]? with
    | none => simp
    | some x => exact hn x (List.mem_of_getElem? h)
  nonneg i r k := by
    apply List.sum_nonneg
    intro x hx
    obtain ⟨t, _, rfl⟩ := List.mem_map.1 hx
    exact abs_nonneg _
  self i r := by
    apply List.sum_eq_zero
    intro x hx
    obtain ⟨t, _, rfl⟩ := List.mem_map.1 hx
    simp
  bound := hb
  argmin := firstMin_le
  argsort0 := firstMin_le

/-- Four scenarios over three steps. -/
def exS (t : Nat) (k : Fin 4) : ℚ := ((([[1, 2, 3, 5], [1, 3, 4, 7], [0, 2, 5, 9]] : List (List ℚ)).getD t []).getD k.val 0)

def exCfg : Cfg 4 := tableCfg 3 [1, 2, 3] 0 exS

theorem exGood : Good exCfg := tableCfg_good 3 (by omega) _ (by decide) _ _ (by decide +kernel)

-- the number of survivors per step, the probabilities of the last step and the network
example : (List.range 3).map (fun i => (alive exCfg exS i).map Fin.val) = [[1], [1, 3], [1, 2, 3]] := by decide +kernel
example : (List.finRange 4).map (row exCfg exS 2).P = [0, 1 / 2, 1 / 4, 1 / 4] := by decide +kernel
example : (match network exCfg exS with
    | .ok N => decide (N.map (fun x => (x.t, x.p, x.v, x.parent)) =
        [(0, 1, 2, none), (1, 3 / 4, 3, some 0), (1, 1 / 4, 7, some 0), (2, 1 / 2, 2, some 1), (2, 1 / 4, 5, some 1), (2, 1 / 4, 9, some 2)])
    | .error _ => false) = true := by decide +kernel

-- C47: the hypotheses hold
example : (∃ j, j < exCfg.T ∧ exCfg.nodes j ≠ 1) ∧ Spread exCfg exS 0 ∧ Spread exCfg exS 1 ∧ Spread exCfg exS 2 := by
  refine ⟨⟨1, by decide, by decide⟩, ?_, ?_, ?_⟩ <;> unfold Spread <;> decide +kernel

-- C49: values differ at all steps
example : Distinct exCfg exS 0 ∧ Distinct exCfg exS 1 ∧ Distinct exCfg exS 2 := by
  refine ⟨?_, ?_, ?_⟩ <;> unfold Distinct <;> decide +kernel

-- C49: two survivors with the same value at the last step: probability is lost
def dupS (t : Nat) (k : Fin 3) : ℚ := ((([[1, 2, 4], [1, 5, 9], [3, 3, 7]] : List (List ℚ)).getD t []).getD k.val 0)
def dupCfg : Cfg 3 := tableCfg 3 [1, 3, 3] 0 dupS
example : Good dupCfg := tableCfg_good 3 (by omega) _ (by decide) _ _ (by decide +kernel)
example : (match network dupCfg dupS with
    | .ok N => decide (((N.filter (fun x => x.t == 2)).map (·.p)).sum = 2 / 3)
    | .error _ => false) = true := by decide +kernel

-- C92: a common first value
def knownS (t : Nat) (k : Fin 4) : ℚ := ((([[1, 1, 1, 1], [1, 3, 4, 7], [0, 2, 5, 9]] : List (List ℚ)).getD t []).getD k.val 0)
def knownCfg : Cfg 4 := tableCfg 3 [1, 3, 3] 0 knownS
example : Good knownCfg := tableCfg_good 3 (by omega) _ (by decide) _ _ (by decide +kernel)
example : (∀ r k, knownCfg.dist 0 r k = 0) ∧ 3 ≤ count knownCfg knownS 1 := by
  constructor <;> decide +kernel
example : (match network knownCfg knownS with | .error .assertionError => true | _ => false) = true := by decide +kernel

-- C93: one node requested at every step, tolerance 10 (the default) and a tiny one
example : (List.range 4).map (count (tableCfg 3 [1, 1, 1] 10 exS) exS) = [1, 1, 1, 4] := by decide +kernel
example : (List.range 4).map (count (tableCfg 3 [1, 1, 1] (1 / 1000) exS) exS) = [1, 2, 3, 4] := by decide +kernel
example : (List.range 4).map (count (tableCfg 3 [1, 1, 1] 0 exS) exS) = [1, 4, 4, 4] := by decide +kernel

-- C50, C94
example : (match network exCfg exS with
    | .ok N => decide (graphLabels N = [0, 1, 2, 3, 4, 5]) && (match retrieve N false with
        | .ok r => decide (r = ([[0, 1, 3], [0, 1, 4], [0, 2, 5]], [3, 4, 5])) | .error _ => false)
    | .error _ => false) = true := by decide +kernel

end PyF.Scenred
