import Verif.NNOpt.Model
import Mathlib.Logic.Function.Iterate
import Mathlib.Algebra.BigOperators.Group.List.Basic
import Mathlib.Algebra.Order.BigOperators.Group.List
import Mathlib.Tactic.Linarith
import Mathlib.Tactic.FieldSimp
import Mathlib.Tactic.Ring
import Mathlib.Tactic.Positivity

namespace PyF.NNOpt

open PyF

variable {Y S : Type}

/-! ### Specification -/

/-- `n` optimiser steps. -/
def steps (o : Opt Y S) : ℕ → Y × S → Y × S
  | 0, st => st
  | n + 1, st => let t := steps o n st; o.step t.1 t.2

/-- Ten steps with the optimiser state reset to `s`. -/
def block (o : Opt Y S) (s : S) (y : Y) : Y := (steps o 10 (y, s)).1

/-- The controls after `k` blocks. -/
def after (o : Opt Y S) (s : S) (y : Y) (k : ℕ) : Y := (block o s)^[k] y

/-- The value reported after `k + 1` blocks: that of the controls one step before the end. -/
def reported (o : Opt Y S) (s : S) (y : Y) (k : ℕ) : ℚ := o.value (steps o 9 (after o s y k, s)).1

theorem rounds_eq (o : Opt Y S) (k : ℕ) (y : Y) (s : S) (v : ℚ) :
    rounds o (k + 1) (y, s, v) = ((steps o (k + 1) (y, s)).1, (steps o (k + 1) (y, s)).2, o.value (steps o k (y, s)).1) := by
  have hshift : ∀ (n : ℕ) (st : Y × S), steps o (n + 1) st = steps o n (o.step st.1 st.2) := by
    intro n
    induction n with
    | zero => intro st; rfl
    | succ n ih => intro st; rw [steps, ih]; rfl
  induction k generalizing y s v with
  | zero => rfl
  | succ k ih =>
    rw [rounds, ih, hshift (k + 1) (y, s), hshift k (y, s)]

theorem iterate_eq (o : Opt Y S) (s : S) (y : Y) : iterate o s y = (block o s y, o.value (steps o 9 (y, s)).1) := by
  unfold iterate block
  rw [rounds_eq]

theorem after_succ (o : Opt Y S) (s : S) (y : Y) (k : ℕ) : block o s (after o s y k) = after o s y (k + 1) := by
  unfold after
  rw [Function.iterate_succ', Function.comp]

/-- Relative improvement of block `k + 1` over block `k`. -/
def improvement (o : Opt Y S) (s : S) (y : Y) (k : ℕ) : ℚ :=
  (reported o s y k - reported o s y (k + 1)) / (|reported o s y k| + 1 / 10 ^ 12)

theorem loop_spec (o : Opt Y S) (tol : ℚ) (s : S) (y : Y) (n : ℕ) : ∀ j,
    ∃ c, loop o tol s n (after o s y (j + 1)) (reported o s y j) = (after o s y (j + 1 + c), reported o s y (j + c), c) ∧ c ≤ n ∧ (0 < n → 0 < c) ∧
      (∀ i, i + 1 < c → tol ≤ improvement o s y (j + i)) ∧ (c < n → improvement o s y (j + (c - 1)) < tol) := by
  induction n with
  | zero => intro j; exact ⟨0, rfl, le_rfl, fun h => h, fun i h => by omega, fun h => by omega⟩
  | succ n ih =>
    intro j
    have hit : iterate o s (after o s y (j + 1)) = (after o s y (j + 1 + 1), reported o s y (j + 1)) := by
      rw [iterate_eq, after_succ]; rfl
    unfold loop
    simp only [hit]
    by_cases ht : (reported o s y j - reported o s y (j + 1)) / (|reported o s y j| + 1 / 10 ^ 12) < tol
    · rw [if_pos ht]
      exact ⟨1, rfl, by omega, fun _ => by omega, fun i h => by omega, fun _ => ht⟩
    · rw [if_neg ht]
      obtain ⟨c, h1, h2, h3, h4, h5⟩ := ih (j + 1)
      refine ⟨c + 1, ?_, by omega, fun _ => by omega, ?_, ?_⟩
      · rw [h1]
        simp only [Prod.mk.injEq]
        refine ⟨by congr 1; omega, by congr 1; omega, trivial⟩
      · intro i hi
        cases i with
        | zero => exact not_lt.1 ht
        | succ i =>
          have := h4 i (by omega)
          rw [show j + (i + 1) = j + 1 + i by omega]; exact this
      · intro hc
        have hpos : 0 < c := h3 (by omega)
        have := h5 (by omega)
        rw [show j + (c + 1 - 1) = j + 1 + (c - 1) by omega]; exact this

/-- **C136.** `optimize` raises UnboundLocalError iff fewer than ten iterations are asked for. Otherwise it makes `c + 1` blocks of ten steps, each starting from a fresh optimiser
state, with `1 ≤ c ≤ n_iter // 10` — so at least twenty steps, and up to ten more than asked for. It stops at the first block whose relative improvement is below the tolerance. -/
theorem C136_optimize (o : Opt Y S) (nIter : ℕ) (tol : ℚ) (y : Y) :
    (nIter < 10 → optimize o nIter tol y = .error .unboundLocalError) ∧
    (10 ≤ nIter → ∃ c, optimize o nIter tol y = .ok (after o (o.init y) y (c + 1), reported o (o.init y) y c, c) ∧ 1 ≤ c ∧ c ≤ nIter / 10 ∧
      (∀ i, i + 1 < c → tol ≤ improvement o (o.init y) y i) ∧ (c < nIter / 10 → improvement o (o.init y) y (c - 1) < tol)) := by
  constructor
  · intro h
    unfold optimize
    simp only [if_pos (Nat.div_eq_of_lt h)]
  · intro h
    have hpos : 0 < nIter / 10 := Nat.div_pos h (by norm_num)
    unfold optimize
    simp only [if_neg hpos.ne']
    obtain ⟨c, h1, h2, h3, h4, h5⟩ := loop_spec o tol (o.init y) y (nIter / 10) 0
    refine ⟨c, ?_, h3 hpos, h2, ?_, ?_⟩
    · have hit : iterate o (o.init y) y = (after o (o.init y) y 1, reported o (o.init y) y 0) := by rw [iterate_eq]; rfl
      rw [hit]
      simp only [Nat.zero_add] at h1
      rw [h1, Nat.add_comm 1 c]
    · intro i hi; have := h4 i hi; rwa [Nat.zero_add] at this
    · intro hc; have := h5 hc; rwa [Nat.zero_add] at this

/-- **C136.** With a non-negative tolerance all blocks but the last improved. -/
theorem C136_monotone_before_last (o : Opt Y S) (nIter : ℕ) (tol : ℚ) (htol : 0 ≤ tol) (y r : Y) (v : ℚ) (c : ℕ) (h : optimize o nIter tol y = .ok (r, v, c)) (i : ℕ) (hi : i + 1 < c) :
    reported o (o.init y) y (i + 1) ≤ reported o (o.init y) y i := by
  have h10 : 10 ≤ nIter := by
    by_contra hc
    rw [(C136_optimize o nIter tol y).1 (by omega)] at h; cases h
  obtain ⟨c', h1, _, _, h4, _⟩ := (C136_optimize o nIter tol y).2 h10
  rw [h1] at h
  injection h with h
  simp only [Prod.mk.injEq] at h
  obtain ⟨_, _, rfl⟩ := h
  have h2 := h4 i hi
  unfold improvement at h2
  have hd : 0 < |reported o (o.init y) y i| + 1 / 10 ^ 12 := by positivity
  have h3 : 0 ≤ (reported o (o.init y) y i - reported o (o.init y) y (i + 1)) / (|reported o (o.init y) y i| + 1 / 10 ^ 12) := htol.trans h2
  by_contra hlt
  have h5 : reported o (o.init y) y i - reported o (o.init y) y (i + 1) < 0 := by linarith [not_le.1 hlt]
  exact absurd h3 (not_le.2 (div_neg_of_neg_of_pos h5 hd))

theorem steps_descent (o : Opt Y S) (hd : ∀ y s, o.value (o.step y s).1 ≤ o.value y) (n m : ℕ) (hnm : n ≤ m) (st : Y × S) : o.value (steps o m st).1 ≤ o.value (steps o n st).1 := by
  induction m with
  | zero => rw [Nat.le_zero.1 hnm]
  | succ m ih =>
    rcases Nat.lt_or_ge n (m + 1) with h | h
    · exact (hd _ _).trans (ih (by omega))
    · rw [le_antisymm hnm h]

/-- **C137.** If no optimiser step increases the objective, the returned controls are at least as good as the reported value and as the start. -/
theorem C137_descent (o : Opt Y S) (hd : ∀ y s, o.value (o.step y s).1 ≤ o.value y) (nIter : ℕ) (tol : ℚ) (y r : Y) (v : ℚ) (c : ℕ) (h : optimize o nIter tol y = .ok (r, v, c)) :
    o.value r ≤ v ∧ v ≤ o.value y := by
  have h10 : 10 ≤ nIter := by
    by_contra hc
    rw [(C136_optimize o nIter tol y).1 (by omega)] at h; cases h
  obtain ⟨c', h1, _, _, _, _⟩ := (C136_optimize o nIter tol y).2 h10
  rw [h1] at h
  injection h with h
  simp only [Prod.mk.injEq] at h
  obtain ⟨rfl, rfl, rfl⟩ := h
  have hb : ∀ k, o.value (after o (o.init y) y k) ≤ o.value y := by
    intro k
    induction k with
    | zero => exact le_rfl
    | succ k ih =>
      rw [← after_succ]
      exact (steps_descent o hd 0 10 (by norm_num) _).trans ih
  constructor
  · rw [← after_succ]
    exact steps_descent o hd 9 10 (by norm_num) _
  · exact (steps_descent o hd 0 9 (by norm_num) (after o (o.init y) y c', o.init y)).trans (hb c')

theorem steps_linear (a : ℚ) (o : Opt ℚ Unit) (ho : ∀ y s, (o.step y s).1 = a * y) (n : ℕ) (st : ℚ × Unit) : (steps o n st).1 = a ^ n * st.1 := by
  induction n with
  | zero => simp [steps]
  | succ n ih =>
    unfold steps
    simp only [ho, ih]
    ring

theorem after_linear (a : ℚ) (o : Opt ℚ Unit) (ho : ∀ y s, (o.step y s).1 = a * y) (y : ℚ) (k : ℕ) : after o () y k = a ^ (10 * k) * y := by
  induction k with
  | zero => simp [after]
  | succ k ih =>
    rw [← after_succ, ih]
    unfold block
    rw [steps_linear a o ho]
    ring

/-- **C137.** Defect: there is no safeguard. On the convex objective `c y²` with `c > 10`, plain gradient descent returns controls worse than the start, after twenty steps. -/
theorem C137_divergence (c : ℚ) (hc : 10 < c) (y : ℚ) (hy : y ≠ 0) (nIter : ℕ) (hn : 10 ≤ nIter) (tol : ℚ) (htol : 0 ≤ tol) :
    ∃ r v, optimize (vanilla (fun y => 2 * c * y) (fun y => c * y ^ 2)) nIter tol y = .ok (r, v, 1) ∧ c * y ^ 2 < c * r ^ 2 := by
  set o := vanilla (fun y => 2 * c * y) (fun y => c * y ^ 2) with ho
  have hstep : ∀ y s, (o.step y s).1 = (1 - c / 5) * y := by
    intro y s; rw [ho]; unfold vanilla; simp only; ring
  set a : ℚ := 1 - c / 5 with ha
  have ha1 : a < -1 := by rw [ha]; linarith
  have hsq : 1 < a ^ 2 := by nlinarith
  have hrep : ∀ k, reported o () y k = c * (a ^ 2) ^ (10 * k + 9) * y ^ 2 := by
    intro k
    unfold reported
    rw [steps_linear a o hstep, after_linear a o hstep]
    show c * (a ^ 9 * (a ^ (10 * k) * y)) ^ 2 = _
    rw [← pow_mul]
    ring
  have hlt : reported o () y 0 < reported o () y 1 := by
    rw [hrep, hrep]
    have hy2 : 0 < y ^ 2 := by positivity
    have h1 : (a ^ 2) ^ (10 * 0 + 9) < (a ^ 2) ^ (10 * 1 + 9) := pow_lt_pow_right₀ hsq (by norm_num)
    have hcp : 0 < c := by linarith
    nlinarith [mul_pos hcp hy2]
  obtain ⟨k, h1, h2, h3, h4, h5⟩ := (C136_optimize o nIter tol y).2 hn
  have hi : o.init y = () := rfl
  rw [hi] at h1 h4 h5
  have himp : improvement o () y 0 < 0 := by
    unfold improvement
    apply div_neg_of_neg_of_pos
    · linarith
    · positivity
  have hk : k = 1 := by
    by_contra hne
    have := h4 0 (by omega)
    linarith
  subst hk
  refine ⟨_, _, h1, ?_⟩
  rw [after_linear a o hstep, mul_pow, ← pow_mul]
  have h20 : (1 : ℚ) < a ^ (10 * (1 + 1) * 2) := by
    have e : a ^ (10 * (1 + 1) * 2) = (a ^ 2) ^ 20 := by rw [← pow_mul]
    rw [e]
    exact one_lt_pow₀ hsq (by norm_num)
  have hy2 : 0 < y ^ 2 := by positivity
  have hcp : 0 < c := by linarith
  nlinarith [mul_pos hcp hy2, mul_pos (mul_pos hcp hy2) (sub_pos.2 h20)]

/-- **C137.** Defect: the value returned is that of the controls before the last step, not that of the returned controls. -/
theorem C137_value_lags (o : Opt Y S) (nIter : ℕ) (tol : ℚ) (y r : Y) (v : ℚ) (c : ℕ) (h : optimize o nIter tol y = .ok (r, v, c)) :
    ∃ b s, v = o.value b ∧ r = (o.step b s).1 := by
  have h10 : 10 ≤ nIter := by
    by_contra hc
    rw [(C136_optimize o nIter tol y).1 (by omega)] at h; cases h
  obtain ⟨c', h1, _, _, _, _⟩ := (C136_optimize o nIter tol y).2 h10
  rw [h1] at h
  injection h with h
  simp only [Prod.mk.injEq] at h
  obtain ⟨rfl, rfl, rfl⟩ := h
  refine ⟨(steps o 9 (after o (o.init y) y c', o.init y)).1, (steps o 9 (after o (o.init y) y c', o.init y)).2, rfl, ?_⟩
  rw [← after_succ]
  rfl

/-! ### The returned frame -/

theorem lookup_zip_none (names : List Col) (vals : List ℚ) (k : Col) (h : k ∉ names) : (names.zip vals).lookup k = none := by
  induction names generalizing vals with
  | nil => rfl
  | cons n ns ih =>
    cases vals with
    | nil => rfl
    | cons v vs =>
      rw [List.zip_cons_cons, List.lookup_cons]
      have hne : (k == n) = false := beq_eq_false_iff_ne.2 (fun e => h (by rw [e]; exact List.mem_cons_self))
      rw [hne]
      exact ih vs (fun hm => h (List.mem_cons_of_mem _ hm))

theorem lookup_zip_map (names : List Col) (g : Col → ℚ) (k : Col) (h : k ∈ names) : (names.zip (names.map g)).lookup k = some (g k) := by
  induction names with
  | nil => simp at h
  | cons n ns ih =>
    rw [List.map_cons, List.zip_cons_cons, List.lookup_cons]
    by_cases hkn : k = n
    · subst hkn; simp
    · rw [beq_eq_false_iff_ne.2 hkn]
      exact ih ((List.mem_cons.1 h).resolve_left hkn)

/-- **C138.** The frame returned: same columns; the columns that are not controls keep their values exactly; normalising it gives the optimised controls. `y` are the optimised
normalised controls, one per control. -/
theorem C138_frame (c : Scaling) (hs : ∀ k, c.scale k ≠ 0) (opt : List Col) (f : Frame) (y : Col → ℚ) :
    (writeBack c opt (opt.map y) (exoPart opt (normalize c f)) f).cols = f.cols ∧
    (∀ k ∈ f.cols, k ∉ opt → (writeBack c opt (opt.map y) (exoPart opt (normalize c f)) f).val k = f.val k) ∧
    ctrlPart opt (normalize c (writeBack c opt (opt.map y) (exoPart opt (normalize c f)) f)) = opt.map y ∧
    exoPart opt (normalize c (writeBack c opt (opt.map y) (exoPart opt (normalize c f)) f)) = exoPart opt (normalize c f) := by
  have hkeep : ∀ k ∈ f.cols, k ∉ opt → (writeBack c opt (opt.map y) (exoPart opt (normalize c f)) f).val k = f.val k := by
    intro k hk hko
    have hm : k ∈ f.cols.filter (fun k => k ∉ opt) := List.mem_filter.2 ⟨hk, by simpa using hko⟩
    unfold writeBack assign exoPart
    simp only
    rw [show (normalize c f).cols = f.cols from rfl, lookup_zip_map _ _ k hm]
    simp only [normalize]
    by_cases hn : c.normalized k = true
    · simp only [hn, if_true]
      have := hs k
      field_simp
      ring
    · simp only [hn, Bool.false_eq_true, if_false]
  have hctrl : ∀ k ∈ opt, (normalize c (writeBack c opt (opt.map y) (exoPart opt (normalize c f)) f)).val k = y k := by
    intro k hk
    have hnot : k ∉ f.cols.filter (fun k => k ∉ opt) := fun h => by
      have := (List.mem_filter.1 h).2
      simp only [decide_not, Bool.not_eq_eq_eq_not, Bool.not_true, decide_eq_false_iff_not] at this
      exact this hk
    simp only [normalize, writeBack, assign]
    rw [lookup_zip_none _ _ k hnot]
    simp only [lookup_zip_map opt y k hk]
    by_cases hn : c.normalized k = true
    · simp only [hn, if_true]
      have := hs k
      field_simp
      ring
    · simp only [hn, Bool.false_eq_true, if_false]
  refine ⟨rfl, hkeep, ?_, ?_⟩
  · unfold ctrlPart
    exact List.map_congr_left (fun k hk => hctrl k hk)
  · unfold exoPart
    apply List.map_congr_left
    intro k hk
    obtain ⟨h1, h2⟩ := List.mem_filter.1 hk
    have hko : k ∉ opt := by simpa using h2
    have := hkeep k h1 hko
    unfold exoPart at this
    show (if c.normalized k = true then ((writeBack c opt (opt.map y) _ f).val k - c.mean k) / c.scale k else (writeBack c opt (opt.map y) _ f).val k) = _
    rw [this]
    rfl

/-! ### Causal penalty -/

theorem sum_zero_iff (l : List ℚ) (h : ∀ a ∈ l, 0 ≤ a) : l.sum = 0 ↔ ∀ a ∈ l, a = 0 := by
  induction l with
  | nil => simp
  | cons b bs ih =>
    have hb := h b List.mem_cons_self
    have hbs : ∀ a ∈ bs, 0 ≤ a := fun a ha => h a (List.mem_cons_of_mem _ ha)
    have hsum := List.sum_nonneg hbs
    rw [List.sum_cons]
    constructor
    · intro h0
      have h1 : b = 0 := by linarith
      have h2 : bs.sum = 0 := by linarith
      intro a ha
      rcases List.mem_cons.1 ha with rfl | ha
      · exact h1
      · exact (ih hbs).1 h2 a ha
    · intro h0
      rw [h0 b List.mem_cons_self, (ih hbs).2 (fun a ha => h0 a (List.mem_cons_of_mem _ ha)), add_zero]

theorem penalty_spec (n k : ℕ) (hn : 0 < n) (hk : 0 < k) (jac m : ℕ → ℕ → ℚ) :
    0 ≤ penalty n k jac m ∧ (penalty n k jac m = 0 ↔ ∀ i < n, ∀ j < k, jac i j * m j i = 0) := by
  have hnn : ∀ a ∈ (List.range n).flatMap (fun i => (List.range k).map (fun j => |jac i j * m j i|)), 0 ≤ a := by
    intro a ha
    obtain ⟨i, _, h2⟩ := List.mem_flatMap.1 ha
    obtain ⟨j, _, rfl⟩ := List.mem_map.1 h2
    exact abs_nonneg _
  have hd : (0 : ℚ) < n * k := by
    have h1 : (0 : ℚ) < n := by exact_mod_cast hn
    have h2 : (0 : ℚ) < k := by exact_mod_cast hk
    positivity
  unfold penalty
  refine ⟨div_nonneg (List.sum_nonneg hnn) hd.le, ?_⟩
  rw [div_eq_zero_iff, or_iff_left hd.ne', sum_zero_iff _ hnn]
  constructor
  · intro h i hi j hj
    have := h |jac i j * m j i| (List.mem_flatMap.2 ⟨i, List.mem_range.2 hi, List.mem_map.2 ⟨j, List.mem_range.2 hj, rfl⟩⟩)
    exact abs_eq_zero.1 this
  · intro h a ha
    obtain ⟨i, h1, h2⟩ := List.mem_flatMap.1 ha
    obtain ⟨j, h3, rfl⟩ := List.mem_map.1 h2
    rw [h i (List.mem_range.1 h1) j (List.mem_range.1 h3), abs_zero]

/-- **C139.** The causal penalty is never negative and is zero iff no output reacts to a control that `causal_df` (rows controls, columns targets) marks as not causing it;
for a probabilistic network output `n + i` is the variance of target `i` and obeys the same table. -/
theorem C139_penalty (n k : ℕ) (hn : 0 < n) (hk : 0 < k) (causal jac : ℕ → ℕ → ℚ) :
    (0 ≤ causalPenalty false n k causal jac ∧ 0 ≤ causalPenalty true n k causal jac) ∧
    (causalPenalty false n k causal jac = 0 ↔ ∀ i < n, ∀ j < k, causal j i = 0 → jac i j = 0) ∧
    (causalPenalty true n k causal jac = 0 ↔ ∀ i < n, ∀ j < k, causal j i = 0 → jac i j = 0 ∧ jac (n + i) j = 0) := by
  have hmask : ∀ a b : ℚ, a * mask b = 0 ↔ (b = 0 → a = 0) := by
    intro a b
    unfold mask
    by_cases hb : b = 0 <;> simp [hb]
  unfold causalPenalty
  simp only [Bool.false_eq_true, if_false, if_true]
  refine ⟨⟨(penalty_spec n k hn hk _ _).1, (penalty_spec (2 * n) k (by omega) hk _ _).1⟩, ?_, ?_⟩
  · rw [(penalty_spec n k hn hk _ _).2]
    simp only [hmask]
  · rw [(penalty_spec (2 * n) k (by omega) hk _ _).2]
    simp only [tiled, hmask]
    constructor
    · intro h i hi j hj hc
      refine ⟨h i (by omega) j hj (by rw [Nat.mod_eq_of_lt hi]; exact hc), h (n + i) (by omega) j hj ?_⟩
      rw [Nat.add_mod_left, Nat.mod_eq_of_lt hi]; exact hc
    · intro h i hi j hj hc
      by_cases hin : i < n
      · rw [Nat.mod_eq_of_lt hin] at hc
        exact (h i hin j hj hc).1
      · have hi' : i - n < n := by omega
        have e : i % n = i - n := by rw [Nat.mod_eq_sub_mod (by omega), Nat.mod_eq_of_lt hi']
        rw [e] at hc
        have := (h (i - n) hi' j hj hc).2
        rwa [show n + (i - n) = i by omega] at this

/-- **C140.** Defect: training a PICNN with `causal_df` raises TypeError iff it is not probabilistic; in all other cases the loss is the one meant. -/
theorem C140_causal_training (causalDf probabilistic : Bool) :
    (callLoss (pickLoss causalDf probabilistic) = .error .typeError ↔ causalDf = true ∧ probabilistic = false) ∧
    (∀ l, callLoss (pickLoss causalDf probabilistic) = .ok l →
      l = if causalDf then Loss.probabilisticCausal else if probabilistic then .probabilistic else .mse) := by
  cases causalDf <;> cases probabilistic <;> simp [pickLoss, callLoss, Loss.accepts]

/-- **C140.** Defect: a probabilistic network with `causal_df` is trained for the normal distribution whatever `distribution` is. -/
theorem C140_distribution (causalDf : Bool) : Kw.distribution ∈ (pickLoss causalDf true).2 ↔ causalDf = false := by
  cases causalDf <;> simp [pickLoss]

end PyF.NNOpt
