import Verif.Kfcv.Props

/-! C306: folds of shifted data, and rows tested twice. -/

namespace PyF.Kfcv

theorem dateRange_shift (a b d : Int) (n j : Nat) : dateRange (a + d) (b + d) n j = dateRange a b n j + d := by
  unfold dateRange
  rw [show b + d - (a + d) = b - a by ring]
  ring

/-- C306 (shift): the folds of data moved in time are the same. -/
theorem C306_shift (idx : List Int) (nk mult : Nat) (starts : List (List Int)) (d : Int) : kfcv (idx.map (· + d)) nk mult starts = kfcv idx nk mult starts := by
  unfold kfcv
  rw [List.head?_map, List.getLast?_map]
  split_ifs with h h'
  · rfl
  · cases idx.head? <;> cases idx.getLast? <;> rfl
  · cases ha : idx.head? with
    | none => rfl
    | some a =>
      cases hb : idx.getLast? with
      | none => rfl
      | some b =>
        simp only [Option.map_some]
        have hw : timeWindow (a + d) (b + d) nk = timeWindow a b nk := by unfold timeWindow; rw [dateRange_shift, dateRange_shift]; ring
        rw [hw]
        have he : ∀ i, dateRange (a + d) (b + d - timeWindow a b nk) (nk * mult) i = dateRange a (b - timeWindow a b nk) (nk * mult) i + d := by
          intro i
          rw [show b + d - timeWindow a b nk = (b - timeWindow a b nk) + d by ring, dateRange_shift]
        have ht : ∀ db lo hi, trainMask (idx.map (· + d)) db (lo + d) (hi + d) = trainMask idx db lo hi := by
          intro db lo hi
          unfold trainMask
          rw [List.map_map]
          refine List.map_congr_left fun t _ => ?_
          have e1 : (t + d < lo + d - db) = (t < lo - db) := propext (by omega)
          have e2 : (t + d > hi + d + db) = (t > hi + db) := propext (by omega)
          simp only [Function.comp_apply, e1, e2]
        have hs : ∀ lo hi, testMask (idx.map (· + d)) (lo + d) (hi + d) = testMask idx lo hi := by
          intro lo hi
          unfold testMask
          rw [List.map_map]
          refine List.map_congr_left fun t _ => ?_
          have e1 : (t + d ≥ lo + d) = (t ≥ lo) := propext (by omega)
          have e2 : (t + d ≤ hi + d) = (t ≤ hi) := propext (by omega)
          simp only [Function.comp_apply, e1, e2]
        split_ifs
        · rfl
        · congr 1
          refine List.map_congr_left fun i _ => ?_
          rw [he i, ← add_assoc, ht, hs]

/-- C306 (overlap): the test windows of consecutive folds have a whole interval of times in common, about `1 / (n_k - 1)` of a window: `(length + 2) (n_k - 1)` is more than the length of a window (in nanoseconds). -/
theorem C306_overlap {idx : List Int} {nk mult : Nat} {starts : List (List Int)} {folds : List (List Bool × List Bool)} (h : kfcv idx nk mult starts = .ok folds)
    (hs : idx.Pairwise (· ≤ ·)) (i : Nat) (f g : List Bool × List Bool) (hf : folds[i]? = some f) (hg : folds[i + 1]? = some g) :
    ∃ a b lo hi : Int, idx.head? = some a ∧ idx.getLast? = some b ∧ a ≤ lo ∧ hi ≤ b ∧ (b - a) / ((nk : Int) - 1) < (hi - lo + 2) * ((nk : Int) - 1) ∧
      ∀ (j : Nat) (t : Int), idx[j]? = some t → lo ≤ t → t ≤ hi → Marked f.2 j ∧ Marked g.2 j := by
  obtain ⟨h1, h2, a, b, ha, hb, hd, rfl⟩ := kfcv_ok h
  have hlen : i + 1 < nk * mult := by
    by_contra hc
    rw [List.getElem?_eq_none (by simpa using hc)] at hg
    cases hg
  rw [List.getElem?_map, List.getElem?_range hlen] at hg
  rw [List.getElem?_map, List.getElem?_range (by omega)] at hf
  simp only [Option.map_some, Option.some.injEq] at hf hg
  subst hf hg
  have hab : a ≤ b := (sorted_bounds hs ha hb a (List.mem_of_mem_head? ha)).2
  have hw := timeWindow_eq a b nk
  generalize timeWindow a b nk = w at *
  have hk : (0 : Int) < (nk : Int) - 1 := by omega
  have hmul : 1 ≤ mult := by
    rcases Nat.eq_zero_or_pos mult with h0 | h0
    · subst h0; simp at hlen
    · exact h0
  have hM : (nk : Int) ≤ ((nk * mult : Nat) : Int) := by exact_mod_cast Nat.le_mul_of_pos_right nk hmul
  have hM1 : (0 : Int) < ((nk * mult : Nat) : Int) - 1 := by omega
  have hw0 : 0 ≤ w := by rw [hw]; exact Int.ediv_nonneg (by omega) (by omega)
  have hwle : w ≤ b - a := by
    rw [hw]
    exact Int.ediv_le_self _ (by omega)
  have hX0 : 0 ≤ b - w - a := by omega
  have hspan : b - a < (w + 1) * ((nk : Int) - 1) := by rw [hw]; exact Int.lt_ediv_add_one_mul_self _ hk
  have hb1 := dateRange_bounds (a := a) (c := b - w) (by omega) (n := nk * mult) (j := i) (by omega) (by omega)
  have hb2 := dateRange_bounds (a := a) (c := b - w) (by omega) (n := nk * mult) (j := i + 1) (by omega) (by omega)
  -- the step between consecutive starts
  have hstep : dateRange a (b - w) (nk * mult) (i + 1) ≤ dateRange a (b - w) (nk * mult) i + (b - w - a) / ((nk : Int) - 1) + 1 := by
    unfold dateRange
    have hMm : (nk : Int) - 1 ≤ ((nk * mult : Nat) : Int) - 1 := by omega
    generalize ((nk * mult : Nat) : Int) - 1 = m at *
    have e : ((i + 1 : Nat) : Int) * (b - w - a) = (i : Int) * (b - w - a) + (b - w - a) := by push_cast; ring
    rw [e]
    have l1 : (i : Int) * (b - w - a) < ((i : Int) * (b - w - a) / m + 1) * m := Int.lt_ediv_add_one_mul_self _ hM1
    have l2 : (b - w - a) < ((b - w - a) / ((nk : Int) - 1) + 1) * ((nk : Int) - 1) := Int.lt_ediv_add_one_mul_self _ hk
    have l3 : 0 ≤ (b - w - a) / ((nk : Int) - 1) := Int.ediv_nonneg hX0 (by omega)
    have l4 : ((b - w - a) / ((nk : Int) - 1) + 1) * ((nk : Int) - 1) ≤ ((b - w - a) / ((nk : Int) - 1) + 1) * m := mul_le_mul_of_nonneg_left hMm (by omega)
    have : ((i : Int) * (b - w - a) + (b - w - a)) / m < (i : Int) * (b - w - a) / m + 1 + ((b - w - a) / ((nk : Int) - 1) + 1) := by
      apply Int.ediv_lt_of_lt_mul hM1
      rw [add_mul]
      omega
    omega
  have hmono : dateRange a (b - w) (nk * mult) i ≤ dateRange a (b - w) (nk * mult) (i + 1) := by
    unfold dateRange
    have : (i : Int) * (b - w - a) / (((nk * mult : Nat) : Int) - 1) ≤ ((i + 1 : Nat) : Int) * (b - w - a) / (((nk * mult : Nat) : Int) - 1) :=
      Int.ediv_le_ediv hM1 (mul_le_mul_of_nonneg_right (by push_cast; omega) hX0)
    omega
  refine ⟨a, b, dateRange a (b - w) (nk * mult) (i + 1), w + dateRange a (b - w) (nk * mult) i, ha, hb, hb2.1, by omega, ?_, ?_⟩
  · rw [← hw]
    have l5 : (b - w - a) / ((nk : Int) - 1) * ((nk : Int) - 1) ≤ b - w - a := Int.ediv_mul_le _ (by omega)
    have l6 : (w - (b - w - a) / ((nk : Int) - 1) + 1) * ((nk : Int) - 1) ≤ (w + dateRange a (b - w) (nk * mult) i - dateRange a (b - w) (nk * mult) (i + 1) + 2) * ((nk : Int) - 1) :=
      mul_le_mul_of_nonneg_right (by linarith) (by omega)
    nlinarith
  · intro j t hj hlo hhi
    unfold testMask
    rw [mask_marked hj, mask_marked hj]
    simp only [Bool.and_eq_true, decide_eq_true_eq]
    omega

/-- C306 (tested twice): if the stamps leave no gap of `d` nanoseconds with `(d + 2) (n_k - 1)` at most the length of a window, consecutive folds test some row twice. -/
theorem C306_tested_twice {idx : List Int} {nk mult : Nat} {starts : List (List Int)} {folds : List (List Bool × List Bool)} (h : kfcv idx nk mult starts = .ok folds)
    (hs : idx.Pairwise (· ≤ ·)) (i : Nat) (f g : List Bool × List Bool) (hf : folds[i]? = some f) (hg : folds[i + 1]? = some g) (d : Int)
    (hd : ∀ a b, idx.head? = some a → idx.getLast? = some b → (d + 2) * ((nk : Int) - 1) ≤ (b - a) / ((nk : Int) - 1) ∧ ∀ s, a ≤ s → s + d ≤ b → ∃ (j : Nat) (t : Int), idx[j]? = some t ∧ s ≤ t ∧ t ≤ s + d) :
    ∃ j, Marked f.2 j ∧ Marked g.2 j := by
  obtain ⟨a, b, lo, hi, ha, hb, h1, h2, h3, h4⟩ := C306_overlap h hs i f g hf hg
  obtain ⟨h5, h6⟩ := hd a b ha hb
  have hk : (0 : Int) < (nk : Int) - 1 := by have := (kfcv_ok h).1; omega
  have : d + 2 < hi - lo + 2 := lt_of_mul_lt_mul_right (lt_of_le_of_lt h5 h3) hk.le
  obtain ⟨j, t, hj, ht1, ht2⟩ := h6 lo h1 (by omega)
  exact ⟨j, h4 j t hj ht1 (by omega)⟩

end PyF.Kfcv
