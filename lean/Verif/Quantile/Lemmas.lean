import Verif.Quantile.Model
import Verif.Quantile.Spec
import Mathlib.Tactic.Linarith
import Mathlib.Tactic.Positivity
import Mathlib.Tactic.FieldSimp
import Mathlib.Tactic.Ring
import Mathlib.Data.List.FinRange
import Mathlib.Data.List.GetD
import Mathlib.Data.Fintype.Card
import Mathlib.Algebra.Order.Floor.Ring

namespace PyF.Quantile
open PyF Spec

theorem getD_mono {s : List ℚ} (hs : s.Pairwise (· ≤ ·)) {i j : Nat} (hij : i ≤ j) (hj : j < s.length) :
    s.getD i 0 ≤ s.getD j 0 := by
  rw [List.getD_eq_getElem _ _ (by omega), List.getD_eq_getElem _ _ hj]
  rcases Nat.lt_or_eq_of_le hij with h | h
  · exact List.pairwise_iff_getElem.1 hs i j (by omega) hj h
  · subst h; exact le_refl _

/-- The interpolation lies between its two neighbouring order statistics. -/
theorem lerpAt_between {s : List ℚ} (hs : s.Pairwise (· ≤ ·)) {v : ℚ} (h0 : 0 ≤ v)
    (h1 : v ≤ (s.length : ℚ) - 1) :
    s.getD ⌊v⌋.toNat 0 ≤ lerpAt s v ∧ lerpAt s v ≤ s.getD (min (⌊v⌋.toNat + 1) (s.length - 1)) 0 ∧
      ⌊v⌋.toNat < s.length := by
  have hf0 : 0 ≤ ⌊v⌋ := Int.floor_nonneg.2 h0
  have hlt : ⌊v⌋.toNat < s.length := by
    have h2 : ((⌊v⌋.toNat : ℕ) : ℚ) ≤ v := by
      have : ((⌊v⌋.toNat : ℤ) : ℚ) ≤ v := by rw [Int.toNat_of_nonneg hf0]; exact Int.floor_le v
      exact_mod_cast this
    have h3 : ((⌊v⌋.toNat : ℕ) : ℚ) < s.length := by linarith
    exact_mod_cast h3
  have hm : s.getD ⌊v⌋.toNat 0 ≤ s.getD (min (⌊v⌋.toNat + 1) (s.length - 1)) 0 :=
    getD_mono hs (by omega) (by omega)
  have hg0 : 0 ≤ v - ⌊v⌋ := by have := Int.floor_le v; linarith
  have hg1 : v - ⌊v⌋ ≤ 1 := by have := Int.lt_floor_add_one v; linarith
  refine ⟨?_, ?_, hlt⟩
  · unfold lerpAt
    have : 0 ≤ (v - ⌊v⌋) * (s.getD (min (⌊v⌋.toNat + 1) (s.length - 1)) 0 - s.getD ⌊v⌋.toNat 0) :=
      mul_nonneg hg0 (by linarith)
    simp only; linarith
  · unfold lerpAt
    simp only
    nlinarith [mul_nonneg (sub_nonneg.2 hg1) (sub_nonneg.2 hm)]

theorem lerpAt_mono {s : List ℚ} (hs : s.Pairwise (· ≤ ·)) {v w : ℚ} (h0 : 0 ≤ v) (hvw : v ≤ w)
    (h1 : w ≤ (s.length : ℚ) - 1) : lerpAt s v ≤ lerpAt s w := by
  obtain ⟨a1, a2, a3⟩ := lerpAt_between hs h0 (le_trans hvw h1)
  obtain ⟨b1, b2, b3⟩ := lerpAt_between hs (le_trans h0 hvw) h1
  have hfl : ⌊v⌋ ≤ ⌊w⌋ := Int.floor_le_floor hvw
  have hf0 : 0 ≤ ⌊v⌋ := Int.floor_nonneg.2 h0
  rcases eq_or_lt_of_le hfl with h | h
  · have hm : s.getD ⌊v⌋.toNat 0 ≤ s.getD (min (⌊v⌋.toNat + 1) (s.length - 1)) 0 :=
      getD_mono hs (by omega) (by omega)
    unfold lerpAt
    simp only [← h]
    nlinarith [mul_nonneg (sub_nonneg.2 hvw) (sub_nonneg.2 hm)]
  · have : s.getD (min (⌊v⌋.toNat + 1) (s.length - 1)) 0 ≤ s.getD ⌊w⌋.toNat 0 :=
      getD_mono hs (by omega) b3
    linarith

theorem sort_pairwise (l : List ℚ) : (l.insertionSort (· ≤ ·)).Pairwise (· ≤ ·) :=
  List.pairwise_insertionSort _ l

theorem virtual_nonneg {l : List ℚ} (hl : l ≠ []) {q : ℚ} (h0 : 0 ≤ q) :
    0 ≤ q * ((l.length : ℚ) - 1) := by
  have h1 : 1 ≤ l.length := List.length_pos_iff.2 hl
  have : (1 : ℚ) ≤ l.length := by exact_mod_cast h1
  exact mul_nonneg h0 (by linarith)

theorem virtual_le {l : List ℚ} (hl : l ≠ []) {q : ℚ} (h1 : q ≤ 1) :
    q * ((l.length : ℚ) - 1) ≤ ((l.insertionSort (· ≤ ·)).length : ℚ) - 1 := by
  have h2 : 1 ≤ l.length := List.length_pos_iff.2 hl
  have : (1 : ℚ) ≤ l.length := by exact_mod_cast h2
  rw [List.length_insertionSort]
  nlinarith

theorem quantileVal_mono {l : List ℚ} (hl : l ≠ []) {q r : ℚ} (h0 : 0 ≤ q) (hqr : q ≤ r) (h1 : r ≤ 1) :
    quantileVal l q ≤ quantileVal l r := by
  apply lerpAt_mono (sort_pairwise l) (virtual_nonneg hl h0) _ (virtual_le hl h1)
  have h2 : 1 ≤ l.length := List.length_pos_iff.2 hl
  have : (1 : ℚ) ≤ l.length := by exact_mod_cast h2
  exact mul_le_mul_of_nonneg_right hqr (by linarith)

/-- In a sorted list at least `i + 1` entries are at most the `i`-th. -/
theorem countP_le_of_sorted {s : List ℚ} (hs : s.Pairwise (· ≤ ·)) {i : Nat} (hi : i < s.length) {v : ℚ}
    (hv : s.getD i 0 ≤ v) : i + 1 ≤ s.countP (fun e => decide (e ≤ v)) := by
  have h1 : (s.take (i + 1)).countP (fun e => decide (e ≤ v)) ≤ s.countP (fun e => decide (e ≤ v)) :=
    (List.take_sublist _ _).countP_le
  have h2 : (s.take (i + 1)).countP (fun e => decide (e ≤ v)) = (s.take (i + 1)).length := by
    rw [List.countP_eq_length]
    intro e he
    obtain ⟨k, hk, rfl⟩ := List.mem_iff_getElem.1 he
    rw [List.length_take] at hk
    simp only [List.getElem_take, decide_eq_true_eq]
    have := getD_mono hs (i := k) (j := i) (by omega) hi
    rw [List.getD_eq_getElem _ _ (by omega)] at this
    exact le_trans this hv
  rw [List.length_take] at h2
  omega

theorem countP_ge_of_sorted {s : List ℚ} (hs : s.Pairwise (· ≤ ·)) {i : Nat} (hi : i < s.length) {v : ℚ}
    (hv : v ≤ s.getD i 0) : s.length - i ≤ s.countP (fun e => decide (v ≤ e)) := by
  have h1 : (s.drop i).countP (fun e => decide (v ≤ e)) ≤ s.countP (fun e => decide (v ≤ e)) :=
    (List.drop_sublist _ _).countP_le
  have h2 : (s.drop i).countP (fun e => decide (v ≤ e)) = (s.drop i).length := by
    rw [List.countP_eq_length]
    intro e he
    obtain ⟨k, hk, rfl⟩ := List.mem_iff_getElem.1 he
    rw [List.length_drop] at hk
    simp only [List.getElem_drop, decide_eq_true_eq]
    have := getD_mono hs (i := i) (j := i + k) (by omega) (by omega)
    rw [List.getD_eq_getElem s _ (show i + k < s.length by omega)] at this
    exact le_trans hv this
  rw [List.length_drop] at h2
  omega

theorem quantileVal_isEmpirical {l : List ℚ} (hl : l ≠ []) {q : ℚ} (h0 : 0 ≤ q) (h1 : q ≤ 1) :
    IsEmpiricalQuantile l q (quantileVal l q) := by
  set s := l.insertionSort (· ≤ ·) with hs
  have hp : s.Perm l := List.perm_insertionSort _ _
  have hsl : s.length = l.length := hp.length_eq
  set v := q * ((l.length : ℚ) - 1) with hv
  have hv0 : 0 ≤ v := virtual_nonneg hl h0
  have hv1 : v ≤ (s.length : ℚ) - 1 := virtual_le hl h1
  obtain ⟨a1, a2, a3⟩ := lerpAt_between (sort_pairwise l) hv0 hv1
  have hf0 : 0 ≤ ⌊v⌋ := Int.floor_nonneg.2 hv0
  have hQ : quantileVal l q = lerpAt s v := rfl
  have hcast : ((⌊v⌋.toNat : ℕ) : ℚ) = ((⌊v⌋ : ℤ) : ℚ) := by
    have : ((⌊v⌋.toNat : ℕ) : ℤ) = ⌊v⌋ := Int.toNat_of_nonneg hf0
    exact_mod_cast congrArg (fun z : ℤ => (z : ℚ)) this
  constructor
  · rw [← hv, ← hp.countP_eq, hQ]
    have h2 := countP_le_of_sorted (sort_pairwise l) a3 a1
    have h3 : ((⌊v⌋.toNat + 1 : ℕ) : ℚ) ≤ (s.countP (fun e => decide (e ≤ lerpAt s v)) : ℚ) := by
      exact_mod_cast h2
    have h4 := Int.lt_floor_add_one v
    push_cast at h3
    linarith
  · rw [← hp.countP_eq, hQ]
    have hgoal : (1 - q) * ((l.length : ℚ) - 1) = (l.length : ℚ) - 1 - v := by rw [hv]; ring
    rw [hgoal]
    by_cases hint : v = ⌊v⌋
    · -- integral virtual index: the value is the order statistic itself
      have hval : lerpAt s v = s.getD ⌊v⌋.toNat 0 := by
        unfold lerpAt
        have : v - (⌊v⌋ : ℚ) = 0 := by linarith
        simp only [this]; ring
      have h2 := countP_ge_of_sorted (sort_pairwise l) a3 (le_of_eq hval)
      have h3 : ((s.length - ⌊v⌋.toNat : ℕ) : ℚ) ≤ (s.countP (fun e => decide (lerpAt s v ≤ e)) : ℚ) := by
        exact_mod_cast h2
      rw [Nat.cast_sub (le_of_lt a3), hcast] at h3
      have : (s.length : ℚ) = l.length := by exact_mod_cast hsl
      linarith
    · have hlt : (⌊v⌋ : ℚ) < v := lt_of_le_of_ne (Int.floor_le v) (Ne.symm hint)
      have hidx : ⌊v⌋.toNat + 1 < s.length := by
        have h5 : ((⌊v⌋.toNat + 1 : ℕ) : ℚ) < (s.length : ℚ) := by
          push_cast; rw [hcast]; linarith
        exact_mod_cast h5
      have hmin : min (⌊v⌋.toNat + 1) (s.length - 1) = ⌊v⌋.toNat + 1 := by omega
      rw [hmin] at a2
      have h2 := countP_ge_of_sorted (sort_pairwise l) hidx a2
      have h3 : ((s.length - (⌊v⌋.toNat + 1) : ℕ) : ℚ)
          ≤ (s.countP (fun e => decide (lerpAt s v ≤ e)) : ℚ) := by exact_mod_cast h2
      rw [Nat.cast_sub (le_of_lt hidx)] at h3
      push_cast at h3
      rw [hcast] at h3
      have : (s.length : ℚ) = l.length := by exact_mod_cast hsl
      linarith

theorem within_of_isEmpirical {l : List ℚ} (hl : l ≠ []) {q v : ℚ} (h0 : 0 ≤ q) (h1 : q ≤ 1)
    (h : IsEmpiricalQuantile l q v) : WithinSample l v := by
  have h2 : 1 ≤ l.length := List.length_pos_iff.2 hl
  have h3 : (1 : ℚ) ≤ l.length := by exact_mod_cast h2
  constructor
  · have : (0 : ℚ) < (l.countP (fun e => decide (e ≤ v)) : ℚ) :=
      lt_of_le_of_lt (mul_nonneg h0 (by linarith)) h.1
    have : 0 < l.countP (fun e => decide (e ≤ v)) := by exact_mod_cast this
    obtain ⟨e, he, hev⟩ := List.countP_pos_iff.1 this
    exact ⟨e, he, by simpa using hev⟩
  · have : (0 : ℚ) < (l.countP (fun e => decide (v ≤ e)) : ℚ) :=
      lt_of_le_of_lt (mul_nonneg (by linarith) (by linarith)) h.2
    have : 0 < l.countP (fun e => decide (v ≤ e)) := by exact_mod_cast this
    obtain ⟨e, he, hev⟩ := List.countP_pos_iff.1 this
    exact ⟨e, he, by simpa using hev⟩

/-! ### the hour dictionary -/

theorem forHours_ok {T : Nat} {f : Fin 24 → Except PyErr (Table T)} {g : Fin 24 → Table T}
    (h : ∀ k, f k = .ok (g k)) : forHours f = .ok g := by
  unfold forHours
  have : (List.finRange 24).findSome? (fun h => errOf (f h)) = none := by
    rw [List.findSome?_eq_none_iff]
    intro k _
    simp [h k, errOf]
  rw [this]
  simp [h]

theorem all_hours_iff {T : Nat} (rows : List (ErrRow T)) :
    (rows.map (fun r => r.hour)).dedup.length = 24 ↔ ∀ h : Fin 24, ∃ r ∈ rows, r.hour = h := by
  set l := rows.map (fun r => r.hour) with hl
  have hnd : l.dedup.Nodup := List.nodup_dedup l
  constructor
  · intro hlen h
    have hcard : l.dedup.toFinset.card = Fintype.card (Fin 24) := by
      rw [List.toFinset_card_of_nodup hnd, hlen]; rfl
    have huniv := (Finset.card_eq_iff_eq_univ _).1 hcard
    have : h ∈ l.dedup.toFinset := by rw [huniv]; exact Finset.mem_univ h
    rw [List.mem_toFinset, List.mem_dedup, hl, List.mem_map] at this
    exact this
  · intro hall
    have huniv : l.dedup.toFinset = Finset.univ := by
      ext h
      simp only [List.mem_toFinset, List.mem_dedup, Finset.mem_univ, iff_true, hl, List.mem_map]
      exact hall h
    have := List.toFinset_card_of_nodup hnd
    rw [huniv] at this
    simpa using this.symm

end PyF.Quantile
