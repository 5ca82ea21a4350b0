import Verif.TreeBuild.Gas
import Mathlib.Tactic.FinCases

namespace PyF.TreeBuild.Examples
open PyF Scenred TreeBuild

/-- C52: requests 1, 2, 4 are built with 7 nodes. -/
example : (match genTree [1, 2, 4] with | .ok N => decide (N.length = 7 ∧ N.map (·.t) = [0, 1, 1, 2, 2, 2, 2] ∧ N.map (·.p) = [1, 1/2, 1/2, 1/4, 1/4, 1/4, 1/4] ∧ N.map (·.parent) = [none, some 0, some 0, some 1, some 1, some 2, some 2]) | .error _ => false) = true := by decide +kernel

/-- C52: hypotheses hold for 1, 2, 4, and fail for 1, 2, 3, which is refused. -/
example : (∀ x ∈ [2, 4], 1 ≤ x) ∧ List.IsChain (· ∣ ·) [1, 2, 4] := by decide
example : genTree [1, 2, 3] = .error .assertionError :=
  (C52_built_iff_divisible [2, 3] (by decide)).2 (by decide)

/-- C96: with 24 steps and 100 scenarios, 23 requests lose the first one; with 24 scenarios they do not. -/
example : effectiveNodes 100 (2 :: List.replicate 22 4) = .ok (1 :: List.replicate 22 4, 1 :: List.replicate 22 4) :=
  (C96_additional_node 100 24 2 (List.replicate 22 4)).2.1 (by decide)
example : effectiveNodes 24 (2 :: List.replicate 22 4) = .ok (1 :: 2 :: List.replicate 22 4, 2 :: List.replicate 22 4) :=
  (C96_additional_node 24 24 2 (List.replicate 22 4)).1 (by decide)

/-- A tree with two nodes at the second step. -/
def two : List (Node ℚ) := [{ t := 0, p := 1, v := 0, parent := none }, { t := 1, p := 1/2, v := 0, parent := some 0 }, { t := 1, p := 1/2, v := 0, parent := some 0 }]

theorem two_wf : WF two := by
  intro k x hk
  match k, hk with
  | 0, hk => simp only [two, List.getElem?_cons_zero, Option.some.injEq] at hk; subst hk; exact Or.inl ⟨rfl, rfl, rfl⟩
  | 1, hk =>
    simp only [two, List.getElem?_cons_succ, List.getElem?_cons_zero, Option.some.injEq] at hk; subst hk
    exact Or.inr ⟨0, { t := 0, p := 1, v := 0, parent := none }, rfl, by omega, rfl, rfl⟩
  | 2, hk =>
    simp only [two, List.getElem?_cons_succ, List.getElem?_cons_zero, Option.some.injEq] at hk; subst hk
    exact Or.inr ⟨0, { t := 0, p := 1, v := 0, parent := none }, rfl, by omega, rfl, rfl⟩
  | k + 3, hk => simp [two] at hk

/-- Three scenarios from a common present 5 to -1, 0 and 1. -/
def fan : Nat → Fin 3 → ℚ := fun t k => if t = 0 then 5 else ![-1, 0, 1] k

/-- C53: both nodes of the second step get the present value 5, though the scenarios are at -1, 0, 1. -/
example : (match initVals two 2 fan with | .ok v => decide (v = [5, 5, 5]) | .error _ => false) = true := by decide +kernel
example (vs : List ℚ) (h : initVals two 2 fan = .ok vs) : vs[1]? = some 5 :=
  C53_known_present two two_wf (by omega) 2 (by omega) fan 5 (fun k => rfl) vs h 1 _ rfl (by decide)

/-- Two leaves under a root, labels 0; 1, 2. -/
def idx2 : Nat → Fin 2 → Nat := fun t s => if t = 0 then 0 else 1 + s

theorem idx2_timed : Timed idx2 2 := by
  intro t s t' s' h1 h2 he
  unfold idx2 at he
  split at he <;> split at he <;> omega

theorem idx2_covered : Covered idx2 2 3 := by
  intro i hi
  match i, hi with
  | 0, _ => exact ⟨0, 0, by omega, rfl⟩
  | 1, _ => exact ⟨1, 0, by omega, rfl⟩
  | 2, _ => exact ⟨1, 1, by omega, rfl⟩

/-- Gains 1/2, 1/4, draws 4 everywhere, identity order. -/
def gin : GasIn 2 := { gain := fun _ r => if r = 0 then 1/2 else 1/4, draw := fun _ _ => 4, order := fun _ _ => Equiv.refl _ }

def tab0 : Nat → Fin 2 → ℚ := fun t s => if t = 0 then 0 else if s = 0 then 1 else 2

/-- C97, C98: hypotheses met; values after one iteration. -/
example : (match neuralGas gin idx2 2 3 1 (1/1000) tab0 [0, 1, 2] with | .ok o => decide (o.treeVals = [3/2, 5/2, 5/2] ∧ o.vals = [0, 1, 2]) | .error _ => false) = true := by decide +kernel

example : ∃ out, neuralGas gin idx2 2 3 7 (1/1000) tab0 [0, 1, 2] = .ok out ∧ out.treeVals.length = 3 ∧ (∀ t s, t < 2 → out.treeVals[idx2 t s]? = some (out.scens t s)) ∧ Within 2 (fun _ => 0) (fun _ => 4) out.scens :=
  C97_training_sound gin idx2 2 3 7 (1/1000) idx2_timed idx2_covered
    (by intro t s _; unfold idx2; split <;> omega) [0, 1, 2] tab0
    (by intro t s ht; unfold idx2 tab0; rcases Nat.eq_zero_or_pos t with h | h
        · simp [h]
        · rw [if_neg (by omega), if_neg (by omega)]; fin_cases s <;> rfl)
    (fun _ => 0) (fun _ => 4)
    (by intro t s _; unfold tab0; split
        · norm_num
        · split <;> norm_num)
    (by intro k r; unfold gin; simp only; split <;> norm_num)
    (by intro k t _; unfold gin; norm_num)

/-- C97: a third node without a leaf below makes the training fail. -/
example : neuralGas gin idx2 2 4 7 (1/1000) tab0 [0, 1, 2, 3] = .error .assertionError :=
  C97_dead_end_fails gin idx2 2 4 7 (1/1000) tab0 _ (by
    intro h
    obtain ⟨t, s, ht, he⟩ := h 3 (by omega)
    unfold idx2 at he
    split at he <;> omega)

/-- C99: a loss that grows at each step: values 1, -2, 4, ... with rate 3; the rate stays 3. -/
example : (match diffTree (n := 1) (L := 1) (fun v => v 0 * v 0) (fun v => v) (fun _ _ => 0) (fun _ => 0) (fun _ => 1) (some 3) 10 1 3 (1/1000) with | .ok o => decide (o.vals 0 = -8 ∧ o.lr = 3 ∧ o.scens 0 0 = 0) | .error _ => false) = true := by decide +kernel

end PyF.TreeBuild.Examples
