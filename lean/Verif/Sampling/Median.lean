import Verif.Sampling.Spec
import Mathlib.Data.List.Sort
import Mathlib.Data.List.GetD
import Mathlib.Tactic.Linarith
import Mathlib.Tactic.Ring

/-! Property C244: the sampling time inferred from an index. -/

namespace PyF.Sampling

open PyF Spec

theorem count_of_low (s : List ℤ) (hs : s.Pairwise (· ≤ ·)) (k : ℕ) (hk : k < s.length) (d : ℤ) (h : s.getD k 0 < d) :
    s.count d + (k + 1) ≤ s.length := by
  rw [List.getD_eq_getElem _ _ hk] at h
  have h1 : (s.take (k + 1)).count d = 0 := by
    rw [List.count_eq_zero]
    intro hm
    obtain ⟨i, hi, he⟩ := List.getElem_of_mem hm
    rw [List.length_take] at hi
    rw [List.getElem_take] at he
    have h2 : s[i] ≤ s[k] := by
      rcases Nat.lt_or_ge i k with h3 | h3
      · exact List.pairwise_iff_getElem.1 hs i k (by omega) hk h3
      · have : i = k := by omega
        subst this
        exact le_refl _
    omega
  have h2 : s.count d = (s.take (k + 1)).count d + (s.drop (k + 1)).count d := by
    rw [← List.count_append, List.take_append_drop]
  have h3 : (s.drop (k + 1)).count d ≤ (s.drop (k + 1)).length := List.count_le_length
  rw [List.length_drop] at h3
  omega

theorem count_of_high (s : List ℤ) (hs : s.Pairwise (· ≤ ·)) (k : ℕ) (hk : k < s.length) (d : ℤ) (h : d < s.getD k 0) : s.count d ≤ k := by
  rw [List.getD_eq_getElem _ _ hk] at h
  have h1 : (s.drop k).count d = 0 := by
    rw [List.count_eq_zero]
    intro hm
    obtain ⟨i, hi, he⟩ := List.getElem_of_mem hm
    rw [List.length_drop] at hi
    rw [List.getElem_drop] at he
    have h2 : s[k] ≤ s[k + i] := by
      rcases Nat.eq_zero_or_pos i with h3 | h3
      · subst h3
        exact le_refl _
      · exact List.pairwise_iff_getElem.1 hs k (k + i) hk (by omega) (by omega)
    omega
  have h2 : s.count d = (s.take k).count d + (s.drop k).count d := by
    rw [← List.count_append, List.take_append_drop]
  have h3 : (s.take k).count d ≤ (s.take k).length := List.count_le_length
  rw [List.length_take] at h3
  omega

/-- The smallest value fills a sorted list up to its last occurrence. -/
theorem count_of_min (s : List ℤ) (hs : s.Pairwise (· ≤ ·)) (k : ℕ) (hk : k < s.length) (d : ℤ) (hd : ∀ x ∈ s, d ≤ x) (h : s.getD k 0 = d) :
    k + 1 ≤ s.count d := by
  rw [List.getD_eq_getElem _ _ hk] at h
  have h1 : ∀ x ∈ s.take (k + 1), x = d := by
    intro x hx
    have hx2 := hd x (List.mem_of_mem_take hx)
    obtain ⟨i, hi, he⟩ := List.getElem_of_mem hx
    rw [List.length_take] at hi
    rw [List.getElem_take] at he
    have h2 : s[i] ≤ s[k] := by
      rcases Nat.lt_or_ge i k with h3 | h3
      · exact List.pairwise_iff_getElem.1 hs i k (by omega) hk h3
      · have : i = k := by omega
        subst this
        exact le_refl _
    omega
  have h2 : s.count d = (s.take (k + 1)).count d + (s.drop (k + 1)).count d := by
    rw [← List.count_append, List.take_append_drop]
  have h3 : (s.take (k + 1)).count d = (s.take (k + 1)).length := List.count_eq_length.2 (fun x hx => (h1 x hx).symm)
  rw [List.length_take] at h3
  omega

theorem diffs_eq_steps : ∀ l : List ℤ, diffs l = steps l
  | [] => rfl
  | [_] => rfl
  | a :: b :: l => by
    have := diffs_eq_steps (b :: l)
    rw [diffs, this]
    rfl

/-- **C244.** If more than half of the steps of an index are equal, that step is the inferred sampling time: whatever gaps, repetitions or jumps the other
steps are. -/
theorem C244_majority (index : List ℤ) (d : ℤ) (h : (steps index).length < 2 * (steps index).count d) : inferDt index = some d := by
  rw [← diffs_eq_steps] at h
  unfold inferDt median
  set l := diffs index
  set s := l.insertionSort (· ≤ ·) with hsdef
  have hp : s.Perm l := List.perm_insertionSort _ _
  have hs : s.Pairwise (· ≤ ·) := List.pairwise_insertionSort _ _
  have hn : s.length = l.length := hp.length_eq
  have hc : s.count d = l.count d := hp.count_eq d
  have key : ∀ k, k < s.length → k + 1 + k < 2 * s.count d + 1 → s.length < s.count d + (k + 1) → s.getD k 0 = d := by
    intro k hk h1 h2
    rcases lt_trichotomy (s.getD k 0) d with h3 | h3 | h3
    · have := count_of_low s hs k hk d h3
      omega
    · exact h3
    · have := count_of_high s hs k hk d h3
      omega
  have hle : s.count d ≤ s.length := List.count_le_length
  simp only
  rw [if_neg (by omega)]
  split
  · rw [key _ (by omega) (by omega) (by omega)]
  · rw [key _ (by omega) (by omega) (by omega), key _ (by omega) (by omega) (by omega), ← two_mul, mul_comm, Int.mul_tdiv_cancel _ (by norm_num)]

/-- **C244.** For an increasing index on a grid of step `dt` with rows missing, the inferred sampling time is `dt` exactly if more than half of the steps of
the index are `dt`. -/
theorem C244_missing_rows_iff (index : List ℤ) (dt : ℤ) (hdt : 2 ≤ dt) (hg : ∀ x ∈ steps index, 0 < x ∧ dt ∣ x) :
    inferDt index = some dt ↔ (steps index).length < 2 * (steps index).count dt := by
  rw [← diffs_eq_steps] at hg ⊢
  constructor
  · unfold inferDt median
    set l := diffs index
    set s := l.insertionSort (· ≤ ·) with hsdef
    have hp : s.Perm l := List.perm_insertionSort _ _
    have hs : s.Pairwise (· ≤ ·) := List.pairwise_insertionSort _ _
    have hn : s.length = l.length := hp.length_eq
    have hc : s.count dt = l.count dt := hp.count_eq dt
    have hge : ∀ x ∈ s, dt ≤ x := fun x hx => Int.le_of_dvd (hg x (hp.mem_iff.1 hx)).1 (hg x (hp.mem_iff.1 hx)).2
    simp only
    split
    · intro h; exact absurd h (by simp)
    · rename_i h0
      split
      · intro h
        have h1 := count_of_min s hs (s.length / 2) (by omega) dt hge (Option.some.inj h)
        omega
      · intro h
        have h1 := Option.some.inj h
        have hm : ∀ k, k < s.length → s.getD k 0 ∈ s := fun k hk => by rw [List.getD_eq_getElem _ _ hk]; exact List.getElem_mem hk
        have ha := hge _ (hm (s.length / 2 - 1) (by omega))
        have hb := hge _ (hm (s.length / 2) (by omega))
        have hb2 := (hg _ (hp.mem_iff.1 (hm (s.length / 2) (by omega)))).2
        rw [Int.tdiv_eq_ediv_of_nonneg (by omega)] at h1
        have h2 : s.getD (s.length / 2) 0 = dt := by
          obtain ⟨c, hc2⟩ := hb2
          rw [hc2] at hb h1 ⊢
          have hc1 : 1 ≤ c := by
            by_contra hlt
            push Not at hlt
            have : dt * c ≤ 0 := by nlinarith
            omega
          have hc3 : c < 2 := by
            by_contra hge2
            push Not at hge2
            have : dt * 2 ≤ dt * c := by nlinarith
            omega
          have : c = 1 := by omega
          rw [this, mul_one]
        have h3 := count_of_min s hs (s.length / 2) (by omega) dt hge h2
        omega
  · rw [diffs_eq_steps]; exact C244_majority index dt

theorem diffs_length : ∀ l : List ℤ, (diffs l).length = l.length - 1
  | [] => rfl
  | [_] => rfl
  | a :: b :: l => by
    have := diffs_length (b :: l)
    simp only [diffs, List.length_cons] at this ⊢
    omega

theorem median_none (l : List ℤ) : median l = none ↔ l = [] := by
  unfold median
  simp only [List.length_insertionSort, List.length_eq_zero_iff]
  split
  · rename_i h; simp [h]
  · rename_i h
    split <;> simp [h]

theorem mem_dropDuplicates (x : ℤ) : ∀ l : List ℤ, x ∈ dropDuplicates l ↔ x ∈ l
  | [] => by simp [dropDuplicates]
  | a :: l => by
    have := mem_dropDuplicates x l
    simp only [dropDuplicates, List.mem_cons, List.mem_filter, this]
    by_cases h : x = a <;> simp [h]

theorem nodup_dropDuplicates : ∀ l : List ℤ, (dropDuplicates l).Nodup
  | [] => by simp [dropDuplicates]
  | a :: l => by
    have := nodup_dropDuplicates l
    simp only [dropDuplicates, List.nodup_cons, List.mem_filter]
    exact ⟨fun h => by simp at h, this.filter _⟩

/-- **C244.** No sampling time can be inferred from a single row; `DiscreteDistr` infers none exactly if all stamps are equal. -/
theorem C244_undefined (index : List ℤ) :
    (inferDt index = none ↔ index.length ≤ 1) ∧ (samplingTime index = none ↔ ∀ a ∈ index, ∀ b ∈ index, a = b) := by
  have h1 : ∀ l, inferDt l = none ↔ l.length ≤ 1 := by
    intro l
    unfold inferDt
    rw [median_none, ← List.length_eq_zero_iff, diffs_length]
    omega
  refine ⟨h1 index, ?_⟩
  unfold samplingTime
  rw [h1]
  have hnd := nodup_dropDuplicates index
  constructor
  · intro h a ha b hb
    rw [← mem_dropDuplicates] at ha hb
    match hd : dropDuplicates index, h with
    | [], _ => rw [hd] at ha; simp at ha
    | [c], _ => rw [hd] at ha hb; simp at ha hb; rw [ha, hb]
  · intro h
    by_contra hlt
    push Not at hlt
    have h2 := List.nodup_iff_injective_getElem.1 hnd
    have h3 := h _ ((mem_dropDuplicates _ _).1 (List.getElem_mem (by omega : 0 < (dropDuplicates index).length))) _
      ((mem_dropDuplicates _ _).1 (List.getElem_mem hlt))
    have h4 := @h2 ⟨0, by omega⟩ ⟨1, hlt⟩ h3
    simp at h4

theorem dropDuplicates_nodup : ∀ l : List ℤ, l.Nodup → dropDuplicates l = l
  | [], _ => rfl
  | a :: l, h => by
    rw [List.nodup_cons] at h
    rw [dropDuplicates, dropDuplicates_nodup l h.2, List.filter_eq_self.2]
    intro x hx
    simp only [ne_eq, decide_not, Bool.not_eq_eq_eq_not, Bool.not_true, decide_eq_false_iff_not]
    rintro rfl
    exact h.1 hx

theorem grid_succ (t0 dt : ℤ) (n : ℕ) : grid t0 dt (n + 1) = t0 :: grid (t0 + dt) dt n := by
  unfold grid
  rw [List.range_succ_eq_map, List.map_cons, List.map_map]
  simp only [Nat.cast_zero, zero_mul, add_zero, List.cons.injEq, true_and]
  apply List.map_congr_left
  intro k _
  simp only [Function.comp_apply, Nat.succ_eq_add_one]
  push_cast
  ring

theorem diffs_grid (dt : ℤ) : ∀ (n : ℕ) (t0 : ℤ), diffs (grid t0 dt (n + 1)) = List.replicate n dt
  | 0, t0 => by rw [grid_succ]; rfl
  | n + 1, t0 => by
    have ih := diffs_grid dt n (t0 + dt)
    rw [grid_succ] at ih
    rw [grid_succ, grid_succ, diffs, ih, List.replicate_succ]
    congr 1
    ring

theorem grid_nodup (t0 dt : ℤ) (hdt : dt ≠ 0) (n : ℕ) : (grid t0 dt n).Nodup := by
  unfold grid
  apply List.Nodup.map _ List.nodup_range
  intro a b h
  have : (a : ℤ) * dt = b * dt := by simpa using h
  exact_mod_cast mul_right_cancel₀ hdt this

/-- **C244.** On a regular index of at least two rows both inferences give its step. -/
theorem C244_regular (t0 dt : ℤ) (hdt : dt ≠ 0) (n : ℕ) (hn : 2 ≤ n) : inferDt (grid t0 dt n) = some dt ∧ samplingTime (grid t0 dt n) = some dt := by
  obtain ⟨m, rfl⟩ : ∃ m, n = m + 2 := ⟨n - 2, by omega⟩
  have h : inferDt (grid t0 dt (m + 2)) = some dt := by
    apply C244_majority
    rw [← diffs_eq_steps, diffs_grid, List.length_replicate, List.count_replicate_self]
    omega
  refine ⟨h, ?_⟩
  unfold samplingTime
  rw [dropDuplicates_nodup _ (grid_nodup t0 dt hdt _)]
  exact h

end PyF.Sampling
