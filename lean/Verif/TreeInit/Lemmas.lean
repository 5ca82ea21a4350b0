import Verif.TreeInit.Model
import Verif.TreeInit.Spec

/-! Lemmas on the default numbers of nodes. -/

namespace PyF.TreeInit
open PyF

theorem exact_rounded : Spec.Rounded exactProg := by
  intro m T hm
  have hm' : (1 : ℝ) ≤ m := by exact_mod_cast hm
  have hlog : 0 ≤ Real.logb 10 m := Real.logb_nonneg (by norm_num) hm'
  refine ⟨?_, ?_, ?_⟩
  · intro i j hij hj
    unfold exactProg
    apply Nat.floor_le_floor
    apply Real.rpow_le_rpow_of_exponent_le (by norm_num)
    have hT : (1 : ℝ) ≤ T := by exact_mod_cast (by omega : 1 ≤ T)
    have : (i : ℝ) / ((T : ℝ) - 1) ≤ (j : ℝ) / ((T : ℝ) - 1) :=
      div_le_div_of_nonneg_right (by exact_mod_cast hij) (by linarith)
    nlinarith
  · unfold exactProg
    simp only [Nat.cast_zero, zero_div, mul_zero, add_zero]
    rw [Nat.floor_eq_zero, Real.rpow_neg_one]
    norm_num
  · intro hT
    left
    unfold exactProg
    have e : (((T - 1 : ℕ) : ℝ)) / ((T : ℝ) - 1) = 1 := by
      rw [Nat.cast_sub (by omega)]
      have this : (2 : ℝ) ≤ (T : ℝ) := by exact_mod_cast hT
      have h2 : (T : ℝ) - 1 ≠ 0 := by
        intro h
        linarith
      simp only [Nat.cast_one]
      exact div_self h2
    rw [e, mul_one, show -1 + (Real.logb 10 m + 1) = Real.logb 10 m by ring, Real.rpow_logb (by norm_num) (by norm_num) (by linarith)]
    exact Nat.floor_natCast m

theorem steps_length (n : ℕ) : (stepsOf n).length = Nat.log 2 n - 2 := by
  simp [stepsOf]

theorem steps_get (n i : ℕ) (hi : i < Nat.log 2 n - 2) : (stepsOf n)[i]? = some (2 ^ (i + 2)) := by
  unfold stepsOf
  rw [List.getElem?_drop, List.getElem?_map, List.getElem?_range (by omega)]
  simp only [Option.map_some]
  rw [Nat.add_comm]

theorem pick_ok (n : ℕ) (hn : 3 ≤ Nat.log 2 n) (r : ℕ) : pick (stepsOf n) r = .ok (2 ^ (min r (Nat.log 2 n - 3) + 2)) := by
  unfold pick
  rw [steps_length, show Nat.log 2 n - 2 - 1 = Nat.log 2 n - 3 by omega, steps_get n _ (by omega)]

theorem pick_empty (n : ℕ) (hn : Nat.log 2 n ≤ 2) (r : ℕ) : pick (stepsOf n) r = .error .indexError := by
  have : stepsOf n = [] := List.length_eq_zero_iff.1 (by rw [steps_length]; omega)
  rw [this]
  rfl

theorem mapM_ok {A B : Type} (f : A → Except PyErr B) (g : A → B) (h : ∀ a, f a = .ok (g a)) (l : List A) : l.mapM f = .ok (l.map g) := by
  induction l with
  | nil => rfl
  | cons a l ih =>
    rw [List.mapM_cons, h a, ih]
    rfl

theorem foldr_max (l : List ℕ) (M : ℕ) (hM : M ∈ l) (hle : ∀ x ∈ l, x ≤ M) : l.foldr max 0 = M := by
  apply le_antisymm
  · clear hM
    induction l with
    | nil => simp
    | cons a l ih =>
      simp only [List.foldr_cons]
      exact max_le (hle a (by simp)) (ih (fun x hx => hle x (by simp [hx])))
  · clear hle
    induction l with
    | nil => simp at hM
    | cons a l ih =>
      simp only [List.foldr_cons]
      rcases List.mem_cons.1 hM with h | h
      · rw [h]
        exact le_max_left _ _
      · exact le_trans (ih h) (le_max_right _ _)

/-- Entry `i` of the reversed progression. -/
theorem reversed_eq (p : ℕ → ℕ) (T : ℕ) (hT : 1 ≤ T) (hp : ∀ i j, i ≤ j → j < T → p i ≤ p j) :
    reversed ((List.range T).map p) = (List.range T).map (fun i => p (T - 1) - p (T - 1 - i)) := by
  unfold reversed
  rw [foldr_max _ (p (T - 1)) (List.mem_map.2 ⟨T - 1, List.mem_range.2 (by omega), rfl⟩) (by
    intro x hx
    obtain ⟨i, hi, rfl⟩ := List.mem_map.1 hx
    have := List.mem_range.1 hi
    exact hp i (T - 1) (by omega) (by omega))]
  apply List.ext_getElem
  · simp
  · intro i h1 h2
    simp only [List.length_map, List.length_reverse, List.length_range] at h1
    simp [List.getElem_reverse]

theorem geometric_ok (prog : Prog) (hp : Spec.Rounded prog) (n T : ℕ) (hn : 3 ≤ Nat.log 2 n) (hT : 1 ≤ T) :
    ∃ r : ℕ → ℕ, geometricNodes prog n T = .ok ((List.range T).map (fun i => 2 ^ (r i + 2))) ∧
      (∀ i j, i ≤ j → j < T → r i ≤ r j) ∧ (∀ i, r i ≤ Nat.log 2 n - 3) ∧ (2 ≤ T → r (T - 1) = Nat.log 2 n - 3) := by
  obtain ⟨h1, h2, h3⟩ := hp (Nat.log 2 n - 2) T (by omega)
  refine ⟨fun i => min (prog (Nat.log 2 n - 2) T (T - 1) - prog (Nat.log 2 n - 2) T (T - 1 - i)) (Nat.log 2 n - 3), ?_, ?_, ?_, ?_⟩
  · unfold geometricNodes
    rw [steps_length, reversed_eq _ T hT h1, mapM_ok _ _ (pick_ok n hn), List.map_map]
    rfl
  · intro i j hij hj
    have := h1 (T - 1 - j) (T - 1 - i) (by omega) (by omega)
    simp only
    omega
  · intro i
    exact min_le_right _ _
  · intro hT2
    simp only [Nat.sub_self, h2]
    rcases h3 hT2 with h | h <;> omega

end PyF.TreeInit
