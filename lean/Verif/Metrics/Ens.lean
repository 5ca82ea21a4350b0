import Verif.Metrics.Props
import Verif.Metrics.EnsSpec
import Mathlib.Algebra.BigOperators.Ring.Finset
import Mathlib.Algebra.BigOperators.Field
import Mathlib.Tactic.Ring
import Mathlib.Tactic.FieldSimp
import Mathlib.Tactic.LinearCombination

/-! C309: what `crps` measures. -/

namespace PyF.Metrics
open PyF

variable {L : Type} [DecidableEq L]

theorem pinball_abs (al q y : ℚ) : max (al * (y - q)) ((1 - al) * (q - y)) = (|q - y| + (1 - 2 * al) * (q - y)) / 2 := by
  rcases le_total q y with h | h
  · rw [max_eq_left (by linarith), abs_of_nonpos (by linarith)]
    ring
  · rw [max_eq_right (by linarith), abs_of_nonneg (by linarith)]
    ring

theorem sum_list_range (N : Nat) (f : Nat → ℚ) : ((List.range N).map f).sum = ∑ k ∈ Finset.range N, f k := by
  induction N with
  | zero => rfl
  | succ N ih => rw [List.range_succ, List.map_append, List.sum_append, ih, Finset.sum_range_succ]; simp

theorem gini (N : Nat) (f : Nat → ℚ) (hf : ∀ k k' : Nat, k ≤ k' → k' < N → f k ≤ f k') :
    ∑ k ∈ Finset.range N, ∑ k' ∈ Finset.range N, |f k - f k'| = 2 * ∑ k ∈ Finset.range N, (2 * (k : ℚ) + 1 - N) * f k := by
  induction N with
  | zero => simp
  | succ N ih =>
    have ih := ih (fun k k' h h' => hf k k' h (by omega))
    rw [Finset.sum_range_succ]
    have e1 : ∑ k ∈ Finset.range N, ∑ k' ∈ Finset.range (N + 1), |f k - f k'| = ∑ k ∈ Finset.range N, ∑ k' ∈ Finset.range N, |f k - f k'| + ∑ k ∈ Finset.range N, (f N - f k) := by
      rw [← Finset.sum_add_distrib]
      refine Finset.sum_congr rfl fun k hk => ?_
      rw [Finset.sum_range_succ, abs_of_nonpos (by have := hf k N (by have := Finset.mem_range.1 hk; omega) (by omega); linarith)]
      ring
    have e2 : ∑ k' ∈ Finset.range (N + 1), |f N - f k'| = ∑ k ∈ Finset.range N, (f N - f k) := by
      rw [Finset.sum_range_succ, sub_self, abs_zero, add_zero]
      refine Finset.sum_congr rfl fun k hk => ?_
      rw [abs_of_nonneg (by have := hf k N (by have := Finset.mem_range.1 hk; omega) (by omega); linarith)]
    rw [e1, e2, ih, Finset.sum_range_succ]
    have e3 : ∑ k ∈ Finset.range N, (2 * (k : ℚ) + 1 - ((N + 1 : Nat) : ℚ)) * f k = ∑ k ∈ Finset.range N, (2 * (k : ℚ) + 1 - N) * f k - ∑ k ∈ Finset.range N, f k := by
      rw [← Finset.sum_sub_distrib]
      refine Finset.sum_congr rfl fun k _ => ?_
      push_cast
      ring
    rw [e3, Finset.sum_sub_distrib, Finset.sum_const, Finset.card_range, nsmul_eq_mul]
    push_cast
    ring

theorem sum_centered (N : Nat) : ∑ k ∈ Finset.range N, (2 * (k : ℚ) + 1 - N) = 0 := by
  rw [Finset.sum_sub_distrib, Finset.sum_const, Finset.card_range, nsmul_eq_mul]
  have : ∑ k ∈ Finset.range N, (2 * (k : ℚ) + 1) = N * N := by
    induction N with
    | zero => simp
    | succ N ih => rw [Finset.sum_range_succ, ih]; push_cast; ring
  rw [this]
  ring

/-- Levels `1/2 + (2 k + 1 - N) / (2 d)`: the sum of the pinball losses. -/
theorem pinball_sum (N : Nat) (f : Nat → ℚ) (hf : ∀ k k' : Nat, k ≤ k' → k' < N → f k ≤ f k') (y d : ℚ) (lev : Nat → ℚ) (hlev : ∀ k < N, (1 - 2 * lev k) = -(2 * (k : ℚ) + 1 - N) / d) :
    ∑ k ∈ Finset.range N, max (lev k * (y - f k)) ((1 - lev k) * (f k - y)) =
      (∑ k ∈ Finset.range N, |f k - y| - (∑ k ∈ Finset.range N, ∑ k' ∈ Finset.range N, |f k - f k'|) / d / 2) / 2 := by
  rw [gini N f hf]
  have e : ∀ k ∈ Finset.range N, max (lev k * (y - f k)) ((1 - lev k) * (f k - y)) = (|f k - y| - (2 * (k : ℚ) + 1 - N) * f k / d) / 2 + (2 * (k : ℚ) + 1 - N) * (y / (2 * d)) := by
    intro k hk
    rw [pinball_abs, hlev k (Finset.mem_range.1 hk)]
    ring
  rw [Finset.sum_congr rfl e, Finset.sum_add_distrib, ← Finset.sum_mul, sum_centered, zero_mul, add_zero, ← Finset.sum_div, Finset.sum_sub_distrib, ← Finset.sum_div]
  ring

omit [DecidableEq L] in
theorem avg_swap (N : Nat) (cells : List Nat) (g : Nat → Nat → ℚ) :
    avg ((List.range N).map (fun k => avg (cells.map (fun i => g k i)))) = avg (cells.map (fun i => (∑ k ∈ Finset.range N, g k i) / N)) := by
  unfold avg
  rw [List.length_map, List.length_range, List.length_map, sum_list_range]
  simp only [List.length_map]
  rw [← Finset.sum_div]
  have : ∑ k ∈ Finset.range N, (cells.map (fun i => g k i)).sum = (cells.map (fun i => ∑ k ∈ Finset.range N, g k i)).sum := by
    induction cells with
    | nil => simp
    | cons a cells ih => simp only [List.map_cons, List.sum_cons, Finset.sum_add_distrib, ih]
  have h2 : (cells.map (fun i => (∑ k ∈ Finset.range N, g k i) / (N : ℚ))).sum = (cells.map (fun i => ∑ k ∈ Finset.range N, g k i)).sum / N := by
    induction cells with
    | nil => simp
    | cons a cells ih => 
      have ih := ih (by
        have := this
        simp only [List.map_cons, List.sum_cons, Finset.sum_add_distrib] at this
        linarith)
      simp only [List.map_cons, List.sum_cons, ih, add_div]
  rw [this, h2, div_right_comm]

theorem crps_swap (n m : Nat) (agg : List L) (hagg : n = agg.length ∨ m = agg.length) (q : QHat) (hq : Preferred q m) (t : Table) (N : Nat) (lev : Nat → ℚ) (hl : N ≤ q.d2) :
    ∃ cr, crps n m agg q t (some ((List.range N).map lev)) = .ok cr ∧
      ∀ l c, cr l c = avg ((members agg l).map (fun i => pick n agg (fun i j => (∑ k ∈ Finset.range N, max (lev k * (t i j - q.val i j k)) ((1 - lev k) * (q.val i j k - t i j))) / N) i c)) := by
  obtain ⟨out, h1, h2, h3⟩ := C56_entries n m agg hagg q hq t ((List.range N).map lev) (by simpa using hl)
  refine ⟨_, by unfold crps levels; simp only [Option.getD_some]; rw [h1], ?_⟩
  intro l c
  have hout : out.map (fun x => x.2.1.at l c) = (List.range N).map (fun k => avg ((members agg l).map (fun i => pick n agg (fun i j => max (lev k * (t i j - q.val i j k)) ((1 - lev k) * (q.val i j k - t i j))) i c))) := by
    apply List.ext_getElem?
    intro k
    rw [List.getElem?_map, List.getElem?_map]
    by_cases hk : k < N
    · obtain ⟨s, r, e1, e2, -⟩ := h3 k (lev k) (by rw [List.getElem?_map, List.getElem?_range hk]; rfl)
      rw [e1, List.getElem?_range hk]
      simp only [Option.map_some, e2]
    · rw [List.getElem?_eq_none (by rw [h2, List.length_map, List.length_range]; omega), List.getElem?_eq_none (by rw [List.length_range]; omega)]
      rfl
  show avg (out.map (fun x => x.2.1.at l c)) = _
  rw [hout, avg_swap N _ (fun k i => pick n agg (fun i j => max (lev k * (t i j - q.val i j k)) ((1 - lev k) * (q.val i j k - t i j))) i c)]
  congr 1
  refine List.map_congr_left fun i _ => ?_
  unfold pick
  split <;> rfl

omit [DecidableEq L] in
theorem pick_half (n : Nat) (agg : List L) (f : Table) (cells : List Nat) (c : Nat) :
    avg (cells.map (fun i => pick n agg (fun i j => f i j / 2) i c)) = avg (cells.map (fun i => pick n agg f i c)) / 2 := by
  have : ∀ i, pick n agg (fun i j => f i j / 2) i c = pick n agg f i c / 2 := by intro i; unfold pick; split <;> rfl
  simp only [this]
  unfold avg
  rw [List.length_map, List.length_map]
  have : (cells.map (fun i => pick n agg f i c / 2)).sum = (cells.map (fun i => pick n agg f i c)).sum / 2 := by
    induction cells with
    | nil => simp
    | cons a cells ih => simp only [List.map_cons, List.sum_cons, ih, add_div]
  rw [this]
  ring

/-- C309 (half): with `N` non-crossing quantiles of the levels `1/(2N), 3/(2N), …` `crps` is half the mean continuous ranked probability score of the distributions that take the
predicted quantiles with the same probability. -/
theorem C309_half (n m : Nat) (agg : List L) (hagg : n = agg.length ∨ m = agg.length) (q : QHat) (hq : Preferred q m) (t : Table) (N : Nat) (hN : 0 < N) (hl : N ≤ q.d2)
    (hs : ∀ i j k k' : Nat, k ≤ k' → k' < N → q.val i j k ≤ q.val i j k') :
    ∃ cr, crps n m agg q t (some (midLevels N)) = .ok cr ∧
      ∀ l c, cr l c = avg ((members agg l).map (fun i => pick n agg (fun i j => ensCrps N (q.val i j) (t i j)) i c)) / 2 := by
  have hN0 : (N : ℚ) ≠ 0 := by exact_mod_cast hN.ne'
  obtain ⟨cr, h1, h2⟩ := crps_swap n m agg hagg q hq t N (fun k => (2 * (k : ℚ) + 1) / (2 * N)) hl
  refine ⟨cr, h1, fun l c => ?_⟩
  rw [h2, ← pick_half]
  congr 1
  refine List.map_congr_left fun i _ => ?_
  have : ∀ i j, (∑ k ∈ Finset.range N, max ((2 * (k : ℚ) + 1) / (2 * N) * (t i j - q.val i j k)) ((1 - (2 * (k : ℚ) + 1) / (2 * N)) * (q.val i j k - t i j))) / N = ensCrps N (q.val i j) (t i j) / 2 := by
    intro i j
    rw [pinball_sum N (q.val i j) (hs i j) (t i j) N (fun k => (2 * (k : ℚ) + 1) / (2 * N)) (fun k _ => by field_simp; ring)]
    unfold ensCrps
    field_simp
  simp only [this]

/-- C309 (default levels): without levels, `crps` of `N` non-crossing quantiles is half the mean fair score of the sample of the predicted quantiles. -/
theorem C309_default (n m : Nat) (agg : List L) (hagg : n = agg.length ∨ m = agg.length) (q : QHat) (hq : Preferred q m) (t : Table) (hN : 2 ≤ q.d2)
    (hs : ∀ i j k k' : Nat, k ≤ k' → k' < q.d2 → q.val i j k ≤ q.val i j k') :
    ∃ cr, crps n m agg q t none = .ok cr ∧
      ∀ l c, cr l c = avg ((members agg l).map (fun i => pick n agg (fun i j => fairCrps q.d2 (q.val i j) (t i j)) i c)) / 2 := by
  have hN0 : (q.d2 : ℚ) ≠ 0 := by exact_mod_cast (by omega : q.d2 ≠ 0)
  have hN1 : (q.d2 : ℚ) - 1 ≠ 0 := by
    have : (2 : ℚ) ≤ q.d2 := by exact_mod_cast hN
    linarith
  obtain ⟨cr, h1, h2⟩ := crps_swap n m agg hagg q hq t q.d2 (fun k => (k : ℚ) / ((q.d2 : ℚ) - 1)) le_rfl
  refine ⟨cr, ?_, fun l c => ?_⟩
  · rw [← h1]
    unfold crps levels nQuantiles quantileAxis linspace01
    rw [if_pos (show q.d1 = m from hq), if_pos rfl]
    rfl
  rw [h2, ← pick_half]
  congr 1
  refine List.map_congr_left fun i _ => ?_
  have : ∀ i j, (∑ k ∈ Finset.range q.d2, max ((k : ℚ) / ((q.d2 : ℚ) - 1) * (t i j - q.val i j k)) ((1 - (k : ℚ) / ((q.d2 : ℚ) - 1)) * (q.val i j k - t i j))) / q.d2 = fairCrps q.d2 (q.val i j) (t i j) / 2 := by
    intro i j
    rw [pinball_sum q.d2 (q.val i j) (hs i j) (t i j) ((q.d2 : ℚ) - 1) (fun k => (k : ℚ) / ((q.d2 : ℚ) - 1)) (fun k _ => by field_simp; ring)]
    unfold fairCrps
    field_simp
  simp only [this]

end PyF.Metrics
