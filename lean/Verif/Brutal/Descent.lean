import Verif.Brutal.Props
import Mathlib.Algebra.BigOperators.Group.Finset.Basic
import Mathlib.Algebra.BigOperators.Ring.Finset
import Mathlib.Algebra.Order.BigOperators.Group.List

/-!
C336: what an iteration of `BrutalRegressor` does to the squared error.
-/

namespace PyF.Brutal

open PyF PyF.Tune PyF.Boost

/-- A sum over rows, bin by bin. -/
theorem sum_by_bin {α : Type} (N : ℕ) (b : α → ℕ) (F : α → ℚ) (B : List α) (hb : ∀ r ∈ B, b r < N) :
    (B.map F).sum = ∑ k ∈ Finset.range N, ((B.filter (fun r => b r == k)).map F).sum := by
  induction B with
  | nil => simp
  | cons r B ih =>
    have h1 := hb r (List.mem_cons_self ..)
    have h2 : ∀ k ∈ Finset.range N, (((r :: B).filter (fun r => b r == k)).map F).sum = (if k = b r then F r else 0) + ((B.filter (fun r => b r == k)).map F).sum := by
      intro k _
      by_cases hk : k = b r
      · rw [List.filter_cons_of_pos (by simp [hk]), List.map_cons, List.sum_cons, if_pos hk]
      · rw [List.filter_cons_of_neg (by simpa using fun h => hk h.symm), if_neg hk, zero_add]
    rw [Finset.sum_congr rfl h2, Finset.sum_add_distrib, Finset.sum_ite_eq', if_pos (Finset.mem_range.2 h1), List.map_cons, List.sum_cons,
      ih (fun s hs => hb s (List.mem_cons_of_mem _ hs))]

theorem mapM_id_map_some (v : List ℚ) : (v.map some).mapM id = some v := by
  induction v with
  | nil => rfl
  | cons x v ih => rw [List.map_cons, List.mapM_cons, ih]; rfl

theorem omean_some (v : List ℚ) (hv : v ≠ []) : omean (v.map some) = some (v.sum / v.length) := by
  unfold omean
  rw [mapM_id_map_some, Option.bind_some, if_neg hv]

/-- Means of bins, products with the deviations from them: the sum vanishes. -/
theorem projection {α : Type} (b : α → ℕ) (e : α → ℚ) (B : List α) (N : ℕ) (hb : ∀ r ∈ B, b r < N) (g : ℕ → ℚ)
    (hg : ∀ r ∈ B, g (b r) = ((B.filter (fun s => b s == b r)).map e).sum / ((B.filter (fun s => b s == b r)).map e).length) :
    (B.map (fun r => g (b r) * (e r - g (b r)))).sum = 0 := by
  rw [sum_by_bin N b _ B hb]
  apply Finset.sum_eq_zero
  intro k _
  have h1 : (B.filter (fun r => b r == k)).map (fun r => g (b r) * (e r - g (b r))) = (B.filter (fun r => b r == k)).map (fun r => g k * e r - g k * g k) := by
    apply List.map_congr_left
    intro r hr
    have : b r = k := by simpa using (List.mem_filter.1 hr).2
    rw [this]; ring
  rw [h1]
  by_cases hn : B.filter (fun r => b r == k) = []
  · rw [hn]; rfl
  · obtain ⟨r, hr⟩ := List.exists_mem_of_ne_nil _ hn
    have hk : b r = k := by simpa using (List.mem_filter.1 hr).2
    have hgk := hg r (List.mem_filter.1 hr).1
    rw [hk] at hgk
    have hs : ∀ l : List α, (l.map (fun r => g k * e r - g k * g k)).sum = g k * ((l.map e).sum - l.length * g k) := by
      intro l
      induction l with
      | nil => simp
      | cons a l ih =>
        simp only [List.map_cons, List.sum_cons, ih, List.length_cons]
        push_cast
        ring
    rw [hs]
    have hpos : ((B.filter (fun r => b r == k)).length : ℚ) ≠ 0 := by
      have := List.length_pos_of_ne_nil hn
      exact_mod_cast this.ne'
    rw [List.length_map] at hgk
    have : (B.filter (fun r => b r == k)).length * g k = ((B.filter (fun r => b r == k)).map e).sum := by
      rw [hgk]; field_simp
    rw [this, sub_self, mul_zero]

theorem sum_square (lr : ℚ) (l : List ℕ) (e p : ℕ → ℚ) :
    (l.map (fun i => (e i - lr * p i) * (e i - lr * p i))).sum
      = (l.map (fun i => e i * e i)).sum - lr * (2 - lr) * (l.map (fun i => p i * p i)).sum - 2 * lr * (l.map (fun i => p i * (e i - p i))).sum := by
  induction l with
  | nil => simp
  | cons i l ih =>
    simp only [List.map_cons, List.sum_cons, ih]
    ring

theorem residual_getD (lr : ℚ) (p : Row → Option ℚ) (err : List (Option ℚ)) : ∀ (rows : List Row) (i : ℕ), i < rows.length →
    (residual lr rows err p).getD i none = osub (err.getD i none) ((p (rows.getD i (fun _ => 0))).map (fun v => lr * v)) := by
  unfold residual
  induction err with
  | nil => intro rows i _; simp [osub]
  | cons e err ih =>
    intro rows i hi
    cases rows with
    | nil => simp at hi
    | cons x rows =>
      cases i with
      | zero => simp
      | succ i =>
        rw [List.zipWith_cons_cons, List.getD_cons_succ, List.getD_cons_succ, List.getD_cons_succ]
        exact ih rows i (by simpa using hi)

/-- The stage of any feature: its values `p` in the bootstrap rows are numbers, the residuals there are `e - lr * p`, and the sum of their squares over the bootstrap
rows is smaller by `lr * (2 - lr)` times that of the squares of `p`. -/
theorem C336_boot (lr : ℚ) (cuts : List ℚ → List ℚ) (rows : List Row) (err : List (Option ℚ)) (idx : List ℕ) (hi : ∀ i ∈ idx, i < rows.length) (f : ℕ) (e : ℕ → ℚ)
    (he : ∀ i ∈ idx, err.getD i none = some (e i)) :
    ∃ p : ℕ → ℚ, (∀ i ∈ idx, stage cuts rows err idx f (rows.getD i (fun _ => 0)) = some (p i)) ∧
      (∀ i ∈ idx, (residual lr rows err (stage cuts rows err idx f)).getD i none = some (e i - lr * p i)) ∧
      (idx.map (fun i => (e i - lr * p i) * (e i - lr * p i))).sum = (idx.map (fun i => e i * e i)).sum - lr * (2 - lr) * (idx.map (fun i => p i * p i)).sum := by
  set inner := cuts ((bootOf rows err idx f).map Prod.fst) with hinner
  let b : ℕ → ℕ := fun i => binOf inner ((rows.getD i (fun _ => 0)) f)
  let g : ℕ → ℚ := fun k => ((idx.filter (fun s => b s == k)).map e).sum / ((idx.filter (fun s => b s == k)).map e).length
  have hb : ∀ r ∈ idx, b r < inner.length + 1 := fun r _ => Nat.lt_succ_of_le List.countP_le_length
  have hst : ∀ i ∈ idx, stage cuts rows err idx f (rows.getD i (fun _ => 0)) = some (g (b i)) := by
    intro i hmem
    unfold stage response
    rw [← hinner]
    have h1 : ((bootOf rows err idx f).filter (fun r => binOf inner r.1 == binOf inner ((rows.getD i (fun _ => 0)) f))).map Prod.snd
        = ((idx.filter (fun s => b s == b i)).map e).map some := by
      unfold bootOf
      rw [List.filter_map, List.map_map, List.map_map]
      apply List.map_congr_left
      intro s hs
      exact he s (List.mem_filter.1 hs).1
    rw [h1, omean_some]
    intro hn
    have : i ∈ idx.filter (fun s => b s == b i) := List.mem_filter.2 ⟨hmem, beq_self_eq_true _⟩
    rw [List.map_eq_nil_iff.1 hn] at this
    cases this
  refine ⟨fun i => g (b i), hst, ?_, ?_⟩
  · intro i hmem
    rw [residual_getD lr _ err rows i (hi i hmem), he i hmem, hst i hmem]
    rfl
  · rw [sum_square, projection b e idx (inner.length + 1) hb g (fun r _ => rfl), mul_zero, sub_zero]

/-- With a learning rate between 0 and 2 an iteration lowers the squared error in its own bootstrap rows, unless the stage is 0 in all of them. -/
theorem C336_lower (lr : ℚ) (h0 : 0 < lr) (h2 : lr < 2) (cuts : List ℚ → List ℚ) (rows : List Row) (err : List (Option ℚ)) (idx : List ℕ) (hi : ∀ i ∈ idx, i < rows.length)
    (f : ℕ) (e e' : ℕ → ℚ) (he : ∀ i ∈ idx, err.getD i none = some (e i))
    (he' : ∀ i ∈ idx, (residual lr rows err (stage cuts rows err idx f)).getD i none = some (e' i)) :
    (idx.map (fun i => e' i * e' i)).sum ≤ (idx.map (fun i => e i * e i)).sum ∧
    ((idx.map (fun i => e' i * e' i)).sum = (idx.map (fun i => e i * e i)).sum ↔ ∀ i ∈ idx, stage cuts rows err idx f (rows.getD i (fun _ => 0)) = some 0) := by
  obtain ⟨p, hp, hr, hs⟩ := C336_boot lr cuts rows err idx hi f e he
  have heq : idx.map (fun i => e' i * e' i) = idx.map (fun i => (e i - lr * p i) * (e i - lr * p i)) := by
    apply List.map_congr_left
    intro i hmem
    have := he' i hmem
    rw [hr i hmem, Option.some.injEq] at this
    rw [this]
  have hc : 0 < lr * (2 - lr) := mul_pos h0 (by linarith)
  have hnn : ∀ l : List ℕ, 0 ≤ (l.map (fun i => p i * p i)).sum ∧ ((l.map (fun i => p i * p i)).sum = 0 ↔ ∀ i ∈ l, p i = 0) := by
    intro l
    induction l with
    | nil => simp
    | cons i l ih =>
      rw [List.map_cons, List.sum_cons]
      have hi := mul_self_nonneg (p i)
      refine ⟨by linarith [ih.1], ?_⟩
      rw [List.forall_mem_cons]
      constructor
      · intro h
        have h1 : p i * p i = 0 := by linarith [ih.1]
        have h2 : (l.map (fun i => p i * p i)).sum = 0 := by linarith [ih.1]
        exact ⟨mul_self_eq_zero.1 h1, ih.2.1 h2⟩
      · rintro ⟨h1, h2⟩
        rw [ih.2.2 h2, h1]; ring
  rw [heq, hs]
  constructor
  · nlinarith [(hnn idx).1]
  · constructor
    · intro h i hmem
      have h3 : lr * (2 - lr) * (idx.map (fun i => p i * p i)).sum = 0 := by linarith
      have h4 := (mul_eq_zero.1 h3).resolve_left hc.ne'
      rw [hp i hmem, (hnn idx).2.1 h4 i hmem]
    · intro h
      have : (idx.map (fun i => p i * p i)).sum = 0 := (hnn idx).2.2 (fun i hmem => by
        have := h i hmem
        rw [hp i hmem] at this
        exact Option.some.inj this)
      rw [this, mul_zero, sub_zero]

/-- Over all training rows the squared error can grow, whatever the learning rate, cuts and feature: two rows with the same features and targets 1 and -1, of
which only the first is drawn. -/
theorem C336_rise (lr : ℚ) (h0 : lr ≠ 0) (cuts : List ℚ → List ℚ) (r : Row) (f : ℕ) :
    ∃ a b : ℚ, residual lr [r, r] [some 1, some (-1)] (stage cuts [r, r] [some 1, some (-1)] [0, 0] f) = [some a, some b] ∧ a * a + b * b > 1 * 1 + (-1) * (-1) := by
  have hs : stage cuts [r, r] [some 1, some (-1)] [0, 0] f r = some 1 := by
    unfold stage response bootOf
    simp only [List.map_cons, List.map_nil, List.getD_cons_zero]
    rw [List.filter_cons_of_pos (by simp), List.filter_cons_of_pos (by simp)]
    rw [show List.filter (fun (s : ℚ × Option ℚ) => binOf (cuts [r f, r f]) s.1 == binOf (cuts [r f, r f]) (r f)) [] = [] from rfl]
    exact (omean_some [1, 1] (by simp)).trans (by norm_num)
  refine ⟨1 - lr, -1 - lr, ?_, ?_⟩
  · unfold residual
    simp only [List.zipWith_cons_cons, List.zipWith_nil_left, hs, Option.map_some, mul_one, osub, Option.bind_some]
  · have : 0 < lr * lr := mul_self_pos.2 h0
    nlinarith

end PyF.Brutal
