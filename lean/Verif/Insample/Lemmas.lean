import Verif.Insample.Model
import Verif.Insample.Spec
import Verif.Quantile.Props
import Verif.Metrics.Props

/-! Lemmas: counting strictly below a quantile; positions and rows. -/

namespace PyF.Insample
open PyF Quantile Metrics

theorem countP_lt_ge (s : List ℚ) (v : ℚ) (i : ℕ) (hi : i ≤ s.length) (h : ∀ k, k < i → s.getD k 0 < v) :
    i ≤ s.countP (fun e => decide (e < v)) := by
  have h1 : (s.take i).countP (fun e => decide (e < v)) ≤ s.countP (fun e => decide (e < v)) := (List.take_sublist _ _).countP_le
  have h2 : (s.take i).countP (fun e => decide (e < v)) = (s.take i).length := by
    rw [List.countP_eq_length]
    intro e he
    obtain ⟨k, hk, rfl⟩ := List.mem_iff_getElem.1 he
    rw [List.length_take] at hk
    simp only [List.getElem_take, decide_eq_true_eq]
    have := h k (by omega)
    rwa [List.getD_eq_getElem _ _ (by omega)] at this
  rw [List.length_take] at h2
  omega

theorem countP_lt_add (l : List ℚ) (v : ℚ) : l.countP (fun e => decide (e < v)) + l.countP (fun e => decide (v ≤ e)) = l.length := by
  induction l with
  | nil => rfl
  | cons a l ih =>
    simp only [List.countP_cons, List.length_cons]
    by_cases h : a < v
    · simp only [h, not_le.2 h, decide_true, decide_false, if_true, Bool.false_eq_true, if_false]
      omega
    · simp only [h, not_lt.1 h, decide_true, decide_false, if_true, Bool.false_eq_true, if_false]
      omega

theorem strict_le (l : List ℚ) (hl : l ≠ []) (q : ℚ) (h0 : 0 ≤ q) (h1 : q ≤ 1) :
    (l.countP (fun e => decide (e < quantileVal l q)) : ℤ) ≤ ⌈q * ((l.length : ℚ) - 1)⌉ := by
  have h2 := (quantileVal_isEmpirical hl h0 h1).2
  have h3 := countP_lt_add l (quantileVal l q)
  have h4 : (l.countP (fun e => decide (e < quantileVal l q)) : ℚ) + (l.countP (fun e => decide (quantileVal l q ≤ e)) : ℚ) = l.length := by
    exact_mod_cast h3
  have h5 : ((l.countP (fun e => decide (e < quantileVal l q)) : ℤ) - 1 : ℤ) < ⌈q * ((l.length : ℚ) - 1)⌉ := by
    rw [Int.lt_ceil]
    push_cast
    linarith
  omega

theorem strict_ge (l : List ℚ) (hl : l ≠ []) (hnd : l.Nodup) (q : ℚ) (h0 : 0 ≤ q) (h1 : q ≤ 1) :
    ⌈q * ((l.length : ℚ) - 1)⌉ ≤ (l.countP (fun e => decide (e < quantileVal l q)) : ℤ) := by
  set s := l.insertionSort (· ≤ ·) with hs
  have hp : s.Perm l := List.perm_insertionSort _ _
  have hsl : s.length = l.length := hp.length_eq
  set v := q * ((l.length : ℚ) - 1) with hv
  have hv0 : 0 ≤ v := virtual_nonneg hl h0
  have hv1 : v ≤ (s.length : ℚ) - 1 := virtual_le hl h1
  obtain ⟨a1, a2, a3⟩ := lerpAt_between (sort_pairwise l) hv0 hv1
  have hf0 : 0 ≤ ⌊v⌋ := Int.floor_nonneg.2 hv0
  have hQ : quantileVal l q = lerpAt s v := rfl
  have hcast : ((⌊v⌋.toNat : ℕ) : ℚ) = ((⌊v⌋ : ℤ) : ℚ) := by
    have : ((⌊v⌋.toNat : ℕ) : ℤ) = ⌊v⌋ := Int.toNat_of_nonneg hf0
    exact_mod_cast congrArg (fun z : ℤ => (z : ℚ)) this
  have hnds : s.Nodup := hp.nodup_iff.2 hnd
  have hlt : ∀ i j, i < j → j < s.length → s.getD i 0 < s.getD j 0 := by
    intro i j hij hj
    refine lt_of_le_of_ne (getD_mono (sort_pairwise l) hij.le hj) ?_
    rw [List.getD_eq_getElem _ _ (by omega), List.getD_eq_getElem _ _ hj]
    intro h
    have := (List.Nodup.getElem_inj_iff hnds).1 h
    omega
  rw [hQ, ← hp.countP_eq]
  by_cases hint : v = ⌊v⌋
  · have hval : lerpAt s v = s.getD ⌊v⌋.toNat 0 := by
      unfold lerpAt
      have : v - (⌊v⌋ : ℚ) = 0 := by linarith
      simp only [this]; ring
    have := countP_lt_ge s (lerpAt s v) ⌊v⌋.toNat a3.le (fun k hk => by rw [hval]; exact hlt _ _ hk a3)
    have hc : ⌈v⌉ = ⌊v⌋ := by rw [hint, Int.ceil_intCast, Int.floor_intCast]
    rw [hc]
    omega
  · have hltv : (⌊v⌋ : ℚ) < v := lt_of_le_of_ne (Int.floor_le v) (Ne.symm hint)
    have hidx : ⌊v⌋.toNat + 1 < s.length := by
      have h5 : ((⌊v⌋.toNat + 1 : ℕ) : ℚ) < (s.length : ℚ) := by
        push_cast; rw [hcast]; linarith
      exact_mod_cast h5
    have hgt : s.getD ⌊v⌋.toNat 0 < lerpAt s v := by
      unfold lerpAt
      have hmin : min (⌊v⌋.toNat + 1) (s.length - 1) = ⌊v⌋.toNat + 1 := by omega
      simp only [hmin]
      have := hlt ⌊v⌋.toNat (⌊v⌋.toNat + 1) (by omega) hidx
      have h6 : 0 < (v - (⌊v⌋ : ℚ)) * (s.getD (⌊v⌋.toNat + 1) 0 - s.getD ⌊v⌋.toNat 0) := mul_pos (by linarith) (by linarith)
      linarith
    have := countP_lt_ge s (lerpAt s v) (⌊v⌋.toNat + 1) hidx.le (fun k hk =>
      lt_of_le_of_lt (getD_mono (sort_pairwise l) (by omega) a3) hgt)
    have hc : ⌈v⌉ ≤ ⌊v⌋ + 1 := Int.ceil_le_floor_add_one v
    omega

theorem avg_indicator {A : Type} (l : List A) (p : A → Bool) : avg (l.map (fun a => if p a = true then (1 : ℚ) else 0)) = (l.countP p : ℚ) / l.length := by
  unfold avg
  rw [List.length_map]
  congr 1
  induction l with
  | nil => rfl
  | cons a l ih =>
    rw [List.map_cons, List.sum_cons, ih, List.countP_cons]
    split <;> push_cast <;> ring

theorem members_map {A L : Type} [DecidableEq L] (key : A → L) (k : L) (F : ℕ → ℚ) (g : A → ℚ) (l : List A) (hF : ∀ i a, l[i]? = some a → F i = g a) :
    (members (l.map key) k).map F = (l.filter (fun a => key a == k)).map g := by
  induction l using List.reverseRecOn with
  | nil => rfl
  | append_singleton l a ih =>
    have hl := ih (fun i b hb => hF i b (by rw [List.getElem?_append_left (List.getElem?_eq_some_iff.1 hb).1]; exact hb))
    have ha := hF l.length a (by simp)
    have e : members ((l ++ [a]).map key) k = members (l.map key) k ++ if key a = k then [l.length] else [] := by
      unfold members
      rw [List.map_append, List.length_append, List.length_map, List.map_singleton, List.length_singleton, List.range_succ, List.filter_append]
      congr 1
      · apply List.filter_congr
        intro i hi
        rw [List.getElem?_append_left (by simpa using hi)]
      · have : (l.map key ++ [key a])[l.length]? = some (key a) := by simp
        by_cases h : key a = k
        · simp [h]
        · simp [h]
    rw [e, List.map_append, hl, List.filter_append, List.map_append]
    congr 1
    by_cases h : key a = k
    · simp [h, ha]
    · simp [h]

end PyF.Insample
