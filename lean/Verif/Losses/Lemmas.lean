import Verif.Losses.Model
import Verif.Losses.Spec
import Mathlib.Algebra.Order.BigOperators.Group.Finset
import Mathlib.Tactic.Ring
import Mathlib.Tactic.Linarith
import Mathlib.Tactic.FieldSimp
import Mathlib.Tactic.Positivity

namespace PyF.Losses
open Spec

variable {n : ℕ}

theorem before_sort (v : Fin n → ℝ) (a b : Fin n) : Before v (Tuple.sort v a) (Tuple.sort v b) ↔ a < b := by
  obtain ⟨hm, ht⟩ := (Tuple.eq_sort_iff (f := v) (σ := Tuple.sort v)).1 rfl
  have key : ∀ a b : Fin n, a < b → Before v (Tuple.sort v a) (Tuple.sort v b) := by
    intro a b h
    rcases lt_or_eq_of_le (hm h.le) with h1 | h1
    · exact Or.inl h1
    · exact Or.inr ⟨h1, ht a b h h1⟩
  constructor
  · intro h
    by_contra hc
    rcases lt_or_eq_of_le (not_lt.1 hc) with h1 | h1
    · rcases key b a h1 with h2 | h2 <;> rcases h with h3 | h3
      · exact lt_asymm h2 h3
      · exact absurd h3.1 (ne_of_gt h2)
      · exact absurd h2.1 (ne_of_gt h3)
      · exact lt_asymm h2.2 h3.2
    · subst h1
      rcases h with h3 | h3
      · exact lt_irrefl _ h3
      · exact lt_irrefl _ h3.2
  · exact key a b

theorem sort_eq_iff (v w : Fin n → ℝ) : Tuple.sort v = Tuple.sort w ↔ SameOrder v w := by
  constructor
  · intro h i j
    obtain ⟨a, rfl⟩ := (Tuple.sort v).surjective i
    obtain ⟨b, rfl⟩ := (Tuple.sort v).surjective j
    rw [before_sort]
    rw [h, before_sort]
  · intro h
    rw [Tuple.eq_sort_iff]
    have key : ∀ a b : Fin n, a < b → Before w (Tuple.sort v a) (Tuple.sort v b) :=
      fun a b hab => (h _ _).1 ((before_sort v a b).2 hab)
    constructor
    · intro a b hab
      rcases lt_or_eq_of_le hab with h1 | h1
      · rcases key a b h1 with h2 | h2
        · exact h2.le
        · exact h2.1.le
      · rw [h1]
    · intro a b hab he
      rcases key a b hab with h2 | h2
      · exact absurd he (ne_of_lt h2)
      · exact h2.2

/-- Sum of squared deviations of the row numbers. -/
noncomputable def spread (n : ℕ) : ℝ := ∑ i : Fin n, ((i : ℕ) - (∑ j : Fin n, ((j : ℕ) : ℝ)) / n) ^ 2

theorem mean_argsort (v : Fin n → ℝ) : mean (argsort v) = (∑ j : Fin n, ((j : ℕ) : ℝ)) / n := by
  unfold mean argsort
  rw [Equiv.sum_comp (Tuple.sort v) (fun j : Fin n => ((j : ℕ) : ℝ))]

theorem sum_argsort (v : Fin n → ℝ) (f : ℝ → ℝ) : ∑ i, f (argsort v i) = ∑ i : Fin n, f ((i : ℕ) : ℝ) := by
  unfold argsort
  exact Equiv.sum_comp (Tuple.sort v) (fun j : Fin n => f ((j : ℕ) : ℝ))

theorem cov_self (v : Fin n → ℝ) : cov (argsort v) (argsort v) = spread n / ((n : ℝ) - 1) := by
  unfold cov spread
  rw [mean_argsort]
  congr 1
  rw [← sum_argsort v (fun x => (x - (∑ j : Fin n, ((j : ℕ) : ℝ)) / n) ^ 2)]
  exact Finset.sum_congr rfl (fun i _ => by ring)

theorem spread_pos (hn : 2 ≤ n) : 0 < spread n := by
  unfold spread
  set m := (∑ j : Fin n, ((j : ℕ) : ℝ)) / n
  have h0 : (0 : ℝ) ≤ ∑ i : Fin n, (((i : ℕ) : ℝ) - m) ^ 2 := Finset.sum_nonneg (fun i _ => sq_nonneg _)
  rcases lt_or_eq_of_le h0 with h | h
  · exact h
  · exfalso
    have hz := (Finset.sum_eq_zero_iff_of_nonneg (fun (i : Fin n) _ => sq_nonneg (((i : ℕ) : ℝ) - m))).1 h.symm
    have h1 := hz ⟨0, by omega⟩ (Finset.mem_univ _)
    have h2 := hz ⟨1, by omega⟩ (Finset.mem_univ _)
    have e1 : ((0 : ℕ) : ℝ) - m = 0 := pow_eq_zero_iff (two_ne_zero) |>.1 h1
    have e2 : ((1 : ℕ) : ℝ) - m = 0 := pow_eq_zero_iff (two_ne_zero) |>.1 h2
    push_cast at e1 e2
    linarith

theorem cov_pos (hn : 2 ≤ n) (v : Fin n → ℝ) : 0 < cov (argsort v) (argsort v) := by
  rw [cov_self]
  have : (2 : ℝ) ≤ n := by exact_mod_cast hn
  exact div_pos (spread_pos hn) (by linarith)

/-- Squared differences of the two permutations. -/
theorem cov_eq (hn : 2 ≤ n) (v w : Fin n → ℝ) :
    cov (argsort v) (argsort w) = spread n / ((n : ℝ) - 1) - (∑ i, (argsort v i - argsort w i) ^ 2) / (2 * ((n : ℝ) - 1)) := by
  have h2 : (2 : ℝ) ≤ n := by exact_mod_cast hn
  have h3 : (n : ℝ) - 1 ≠ 0 := by linarith
  unfold cov
  rw [mean_argsort, mean_argsort]
  have a := sum_argsort v (fun x => (x - (∑ j : Fin n, ((j : ℕ) : ℝ)) / n) ^ 2)
  have b := sum_argsort w (fun x => (x - (∑ j : Fin n, ((j : ℕ) : ℝ)) / n) ^ 2)
  have hs : spread n = ∑ i : Fin n, (((i : ℕ) : ℝ) - (∑ j : Fin n, ((j : ℕ) : ℝ)) / n) ^ 2 := rfl
  rw [← hs] at a b
  set m := (∑ j : Fin n, ((j : ℕ) : ℝ)) / n
  have e : ∑ i, (argsort v i - argsort w i) ^ 2
      = ∑ i, (argsort v i - m) ^ 2 + ∑ i, (argsort w i - m) ^ 2 - 2 * ∑ i, (argsort v i - m) * (argsort w i - m) := by
    rw [Finset.mul_sum, ← Finset.sum_add_distrib, ← Finset.sum_sub_distrib]
    exact Finset.sum_congr rfl (fun i _ => by ring)
  rw [e, a, b]
  field_simp
  ring

theorem right_eq (hn : 2 ≤ n) (hat objs : Fin n → ℝ) :
    monotonicRight hat objs = some (-1 + (∑ i, (argsort objs i - argsort hat i) ^ 2) / (2 * spread n)) := by
  have h2 : (2 : ℝ) ≤ n := by exact_mod_cast hn
  have h3 : (0 : ℝ) < (n : ℝ) - 1 := by linarith
  have hs := spread_pos hn
  unfold monotonicRight corr
  rw [if_neg (by
    rintro (h | h | h)
    · omega
    · exact (cov_pos hn objs).ne' h
    · exact (cov_pos hn hat).ne' h)]
  simp only [Option.map_some, Option.some.injEq]
  rw [cov_self, cov_self, div_div, Real.mul_self_sqrt (div_pos hs h3).le, cov_eq hn]
  field_simp
  ring

/-- One row: not a number. -/
theorem right_single (hn : n ≤ 1) (hat objs : Fin n → ℝ) : monotonicRight hat objs = none := by
  unfold monotonicRight corr
  rw [if_pos (Or.inl hn)]
  rfl

theorem argsort_inj (v w : Fin n → ℝ) : argsort v = argsort w ↔ Tuple.sort v = Tuple.sort w := by
  constructor
  · intro h
    ext k
    have := congrFun h k
    unfold argsort at this
    exact_mod_cast this
  · intro h
    unfold argsort
    rw [h]

theorem mse_nonneg {d : ℕ} (a b : Fin n → Fin d → ℝ) : 0 ≤ mse a b := by
  unfold mse
  exact div_nonneg (Finset.sum_nonneg (fun i _ => Finset.sum_nonneg (fun j _ => sq_nonneg _))) (by positivity)

theorem mse_zero {d : ℕ} (hn : 1 ≤ n) (hd : 1 ≤ d) (a b : Fin n → Fin d → ℝ) : mse a b = 0 ↔ a = b := by
  have h1 : (0 : ℝ) < n := by exact_mod_cast hn
  have h2 : (0 : ℝ) < d := by exact_mod_cast hd
  unfold mse
  rw [div_eq_zero_iff, or_iff_left (by positivity)]
  rw [Finset.sum_eq_zero_iff_of_nonneg (fun i _ => Finset.sum_nonneg (fun j _ => sq_nonneg _))]
  constructor
  · intro h
    funext i j
    have := h i (Finset.mem_univ _)
    rw [Finset.sum_eq_zero_iff_of_nonneg (fun j _ => sq_nonneg _)] at this
    have := this j (Finset.mem_univ _)
    rw [pow_eq_zero_iff two_ne_zero] at this
    linarith
  · rintro rfl i _
    simp

theorem mean_sq_nonneg (x : Fin n → ℝ) : 0 ≤ mean (fun i => x i ^ 2) := by
  unfold mean
  exact div_nonneg (Finset.sum_nonneg (fun i _ => sq_nonneg _)) (by positivity)

/-- `x - log x - 1` is nonnegative and vanishes at one only. -/
theorem sub_log (x : ℝ) (hx : 0 < x) : 0 ≤ x - Real.log x - 1 ∧ (x - Real.log x - 1 = 0 ↔ x = 1) := by
  have h := Real.log_le_sub_one_of_pos hx
  refine ⟨by linarith, ?_⟩
  constructor
  · intro h1
    by_contra hne
    have := Real.log_lt_sub_one_of_pos hx hne
    linarith
  · rintro rfl
    simp

end PyF.Losses
