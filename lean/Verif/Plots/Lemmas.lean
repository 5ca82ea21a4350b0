import Verif.Plots.Model
import Verif.Quantile.Props
import Mathlib.Tactic.Linarith

namespace PyF.Plots
open PyF

theorem foldl_min (l : List ℚ) : ∀ a, (∀ x ∈ a :: l, l.foldl min a ≤ x) ∧ l.foldl min a ∈ a :: l := by
  induction l with
  | nil => intro a; simp
  | cons b l ih =>
    intro a
    obtain ⟨h1, h2⟩ := ih (min a b)
    have hm := h1 (min a b) (by simp)
    refine ⟨?_, ?_⟩
    · intro x hx
      rcases List.mem_cons.1 hx with rfl | hx
      · exact hm.trans (min_le_left _ _)
      · rcases List.mem_cons.1 hx with rfl | hx
        · exact hm.trans (min_le_right _ _)
        · exact h1 x (List.mem_cons_of_mem _ hx)
    · rcases List.mem_cons.1 h2 with h | h
      · change l.foldl min (min a b) ∈ _
        rw [h]
        rcases min_choice a b with h' | h' <;> rw [h'] <;> simp
      · exact List.mem_cons_of_mem _ (List.mem_cons_of_mem _ h)

theorem foldl_max (l : List ℚ) : ∀ a, (∀ x ∈ a :: l, x ≤ l.foldl max a) ∧ l.foldl max a ∈ a :: l := by
  induction l with
  | nil => intro a; simp
  | cons b l ih =>
    intro a
    obtain ⟨h1, h2⟩ := ih (max a b)
    have hm := h1 (max a b) (by simp)
    refine ⟨?_, ?_⟩
    · intro x hx
      rcases List.mem_cons.1 hx with rfl | hx
      · exact (le_max_left _ _).trans hm
      · rcases List.mem_cons.1 hx with rfl | hx
        · exact (le_max_right _ _).trans hm
        · exact h1 x (List.mem_cons_of_mem _ hx)
    · rcases List.mem_cons.1 h2 with h | h
      · change l.foldl max (max a b) ∈ _
        rw [h]
        rcases max_choice a b with h' | h' <;> rw [h'] <;> simp
      · exact List.mem_cons_of_mem _ (List.mem_cons_of_mem _ h)

theorem npMin_spec {l : List ℚ} {m : ℚ} (h : npMin l = .ok m) : m ∈ l ∧ ∀ x ∈ l, m ≤ x := by
  cases l with
  | nil => cases h
  | cons a l => cases h; exact ⟨(foldl_min l a).2, (foldl_min l a).1⟩

theorem npMax_spec {l : List ℚ} {m : ℚ} (h : npMax l = .ok m) : m ∈ l ∧ ∀ x ∈ l, x ≤ m := by
  cases l with
  | nil => cases h
  | cons a l => cases h; exact ⟨(foldl_max l a).2, (foldl_max l a).1⟩

theorem np_ok {l : List ℚ} (h : l ≠ []) : ∃ lo hi, npMin l = .ok lo ∧ npMax l = .ok hi := by
  cases l with
  | nil => exact absurd rfl h
  | cons a l => exact ⟨_, _, rfl, rfl⟩

/-- A loop with an index check. -/
theorem rows_ok (n k step : Nat) :
    (∀ l, (List.range k).mapM (fun (i : Nat) => if i * step < n then Except.ok (i * step) else .error PyErr.indexError) = .ok l → l = (List.range k).map (· * step) ∧ ∀ i < k, i * step < n) ∧
    ((∀ i < k, i * step < n) → (List.range k).mapM (fun (i : Nat) => if i * step < n then Except.ok (i * step) else .error PyErr.indexError) = .ok ((List.range k).map (· * step))) ∧
    ((∃ i < k, n ≤ i * step) → (List.range k).mapM (fun (i : Nat) => if i * step < n then Except.ok (i * step) else .error PyErr.indexError) = .error PyErr.indexError) := by
  have key : ∀ r : List Nat, (∀ l, r.mapM (fun (i : Nat) => if i * step < n then Except.ok (i * step) else .error PyErr.indexError) = .ok l → l = r.map (· * step) ∧ ∀ i ∈ r, i * step < n) ∧
      ((∀ i ∈ r, i * step < n) → r.mapM (fun (i : Nat) => if i * step < n then Except.ok (i * step) else .error PyErr.indexError) = .ok (r.map (· * step))) ∧
      ((∃ i ∈ r, n ≤ i * step) → r.mapM (fun (i : Nat) => if i * step < n then Except.ok (i * step) else .error PyErr.indexError) = .error PyErr.indexError) := by
    intro r
    induction r with
    | nil => exact ⟨fun l hl => by cases hl; simp, fun _ => rfl, by simp⟩
    | cons a r ih =>
      obtain ⟨i1, i2, i3⟩ := ih
      rw [List.mapM_cons]
      by_cases ha : a * step < n
      · rw [if_pos ha]
        refine ⟨?_, ?_, ?_⟩
        · intro l hl
          cases hr : r.mapM (fun (i : Nat) => if i * step < n then Except.ok (i * step) else .error PyErr.indexError) with
          | error e => rw [hr] at hl; cases hl
          | ok l' =>
            rw [hr] at hl; cases hl
            obtain ⟨h1, h2⟩ := i1 l' hr
            refine ⟨by rw [h1]; rfl, ?_⟩
            intro i hi
            rcases List.mem_cons.1 hi with rfl | hi
            · exact ha
            · exact h2 i hi
        · intro h
          rw [i2 fun i hi => h i (List.mem_cons_of_mem _ hi)]
          rfl
        · rintro ⟨i, hi, hn⟩
          rcases List.mem_cons.1 hi with rfl | hi
          · omega
          · rw [i3 ⟨i, hi, hn⟩]; rfl
      · rw [if_neg ha]
        refine ⟨fun l hl => (by cases hl), fun h => absurd (h a (by simp)) ha, fun _ => rfl⟩
  obtain ⟨k1, k2, k3⟩ := key (List.range k)
  refine ⟨fun l hl => ?_, fun h => k2 fun i hi => h i (List.mem_range.1 hi), fun ⟨i, hi, hn⟩ => k3 ⟨i, List.mem_range.2 hi, hn⟩⟩
  obtain ⟨h1, h2⟩ := k1 l hl
  exact ⟨h1, fun i hi => h2 i (List.mem_range.2 hi)⟩

/-! ### Edges -/

theorem mem_dropRepeats (l : List ℚ) : ∀ x, x ∈ dropRepeats l ↔ x ∈ l := by
  induction l with
  | nil => simp [dropRepeats]
  | cons a l ih =>
    cases l with
    | nil => simp [dropRepeats]
    | cons b l =>
      intro x
      unfold dropRepeats
      split
      · rename_i h
        rw [ih, h]; simp
      · rw [List.mem_cons, ih, ← List.mem_cons]

theorem dropRepeats_sorted {l : List ℚ} (h : l.Pairwise (· ≤ ·)) : (dropRepeats l).Pairwise (· < ·) := by
  induction l with
  | nil => simp [dropRepeats]
  | cons a l ih =>
    cases l with
    | nil => simp [dropRepeats]
    | cons b l =>
      have h' := List.pairwise_cons.1 h
      unfold dropRepeats
      split
      · exact ih h'.2
      · rename_i hne
        refine List.pairwise_cons.2 ⟨?_, ih h'.2⟩
        intro x hx
        have hx' := (mem_dropRepeats _ x).1 hx
        have hab : a < b := lt_of_le_of_ne (h'.1 b (by simp)) hne
        rcases List.mem_cons.1 hx' with rfl | hx'
        · exact hab
        · exact hab.trans_le ((List.pairwise_cons.1 h'.2).1 x hx')

/-- Bins of increasing edges. -/
theorem cutBin_iff {es : List ℚ} (h : es.Pairwise (· < ·)) (v : ℚ) (i : Nat) : cutBin es v = some i ↔ ∃ a b, es[i]? = some a ∧ es[i + 1]? = some b ∧ a < v ∧ v ≤ b := by
  have hg : ∀ (k : Nat) (hk : k < es.length), es.getD k 0 = es[k] := fun k hk => by rw [List.getD_eq_getElem?_getD, List.getElem?_eq_getElem hk]; rfl
  unfold cutBin
  constructor
  · intro hf
    have h1 := List.find?_some hf
    have h2 := List.mem_range.1 (List.mem_of_find?_eq_some hf)
    have hi : i < es.length := by omega
    have hi' : i + 1 < es.length := by omega
    simp only [Bool.and_eq_true, decide_eq_true_eq] at h1
    rw [hg i hi, hg (i + 1) hi'] at h1
    exact ⟨_, _, List.getElem?_eq_getElem hi, List.getElem?_eq_getElem hi', h1.1, h1.2⟩
  · rintro ⟨a, b, ha, hb, h1, h2⟩
    obtain ⟨hi, rfl⟩ := List.getElem?_eq_some_iff.1 ha
    obtain ⟨hi', rfl⟩ := List.getElem?_eq_some_iff.1 hb
    rw [List.find?_range_eq_some]
    refine ⟨?_, List.mem_range.2 (by omega), ?_⟩
    · simp only [Bool.and_eq_true, decide_eq_true_eq]
      rw [hg i hi, hg (i + 1) hi']
      exact ⟨h1, h2⟩
    · intro j hj
      have hj' : j + 1 < es.length := by omega
      rw [hg j (by omega), hg (j + 1) hj']
      have : es[j + 1] ≤ es[i] := by
        rcases Nat.lt_or_ge (j + 1) i with h' | h'
        · exact (List.pairwise_iff_getElem.1 h (j + 1) i hj' hi h').le
        · have : j + 1 = i := by omega
          subst this; exact le_rfl
      have hn : ¬ v ≤ es[j + 1] := by
        intro hle
        linarith
      simp [hn]

/-- A value has a bin exactly if it is above some edge and not above another one. -/
theorem cutBin_isSome {es : List ℚ} (h : es.Pairwise (· < ·)) (v : ℚ) : (∃ i, cutBin es v = some i) ↔ (∃ a ∈ es, a < v) ∧ ∃ b ∈ es, v ≤ b := by
  constructor
  · rintro ⟨i, hi⟩
    obtain ⟨a, b, ha, hb, h1, h2⟩ := (cutBin_iff h v i).1 hi
    exact ⟨⟨a, List.mem_of_getElem? ha, h1⟩, b, List.mem_of_getElem? hb, h2⟩
  · rintro ⟨⟨a, ha, h1⟩, b, hb, h2⟩
    -- the last edge below the value
    obtain ⟨i, hi, rfl⟩ := List.getElem_of_mem ha
    obtain ⟨j, hj, rfl⟩ := List.getElem_of_mem hb
    have hex : ∃ k, ∃ hk : k < es.length, v ≤ es[k] := ⟨j, hj, h2⟩
    classical
    obtain ⟨hk, hv⟩ := Nat.find_spec hex
    have hmin := fun m hm => Nat.find_min hex (m := m) hm
    set k := Nat.find hex with hkdef
    have hik : i < k := by
      by_contra hc
      have : es[k] ≤ es[i] := by
        rcases Nat.lt_or_ge k i with h' | h'
        · exact (List.pairwise_iff_getElem.1 h k i hk hi h').le
        · have : k = i := by omega
          simp [this]
      linarith
    refine ⟨k - 1, (cutBin_iff h v (k - 1)).2 ⟨es[k - 1], es[k], List.getElem?_eq_getElem (by omega), ?_, ?_, hv⟩⟩
    · rw [show k - 1 + 1 = k by omega]
      exact List.getElem?_eq_getElem hk
    · by_contra hc
      exact hmin (k - 1) (by omega) ⟨by omega, by linarith⟩

end PyF.Plots
