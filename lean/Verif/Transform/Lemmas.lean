import Verif.Transform.Model
import Mathlib.Tactic.Linarith
import Mathlib.Tactic.Ring
import Mathlib.Data.List.Basic
import Mathlib.Tactic.Set

namespace PyF.Transform
open PyF.Names

theorem shift_length (l : Int) (c : Col) : (shift l c).length = c.length := by simp [shift]

theorem shift_get (l : Int) (c : Col) (t : Nat) (ht : t < c.length) :
    (shift l c)[t]? = some (sample c ((t : Int) - l)) := by
  simp [shift, List.getElem?_map, List.getElem?_range ht]

theorem rolling_length (dt a m : Nat) (f : List ℚ → Option ℚ) (c : Col) : (rolling dt a m f c).length = c.length := by
  simp [rolling]

theorem rolling_get (dt a m : Nat) (f : List ℚ → Option ℚ) (c : Col) (t : Nat) (ht : t < c.length) :
    (rolling dt a m f c)[t]? = some (rollAt dt a m f c t) := by
  simp [rolling, List.getElem?_map, List.getElem?_range ht]

theorem sample_nat (c : Col) (t : Nat) : sample c (t : Int) = (c[t]?).join := by simp [sample]

theorem sample_neg (c : Col) (i : Int) (h : i < 0) : sample c i = none := by
  unfold sample; rw [if_neg (by omega)]

theorem sample_out (c : Col) (i : Int) (h : (c.length : Int) ≤ i) : sample c i = none := by
  unfold sample
  split
  · rw [List.getElem?_eq_none (by omega)]; rfl
  · rfl

theorem sample_of_get (c : Col) (t : Nat) (v : Option ℚ) (h : c[t]? = some v) : sample c (t : Int) = v := by
  rw [sample_nat, h]; rfl

/-- All present: `mapM`; otherwise fewer observations than entries. -/
theorem obs_all (L : List (Option ℚ)) :
    ((L.filterMap id).length < L.length ∧ L.mapM id = none) ∨
    ((L.filterMap id).length = L.length ∧ L.mapM id = some (L.filterMap id)) := by
  induction L with
  | nil => right; simp
  | cons a L ih =>
    cases a with
    | none =>
      left
      refine ⟨?_, by simp⟩
      have := List.length_filterMap_le id L
      show (List.filterMap id L).length < L.length + 1
      omega
    | some v =>
      rcases ih with ⟨h1, h2⟩ | ⟨h1, h2⟩
      · left
        exact ⟨by simpa using h1, by simp [List.mapM_cons, h2]⟩
      · right
        exact ⟨by simpa using h1, by simp [List.mapM_cons, h2]⟩

theorem mapM_map_id {α : Type} (g : α → Option ℚ) (l : List α) : (l.map g).mapM id = l.mapM g := by
  induction l with
  | nil => rfl
  | cons a l ih => simp [List.mapM_cons, ih]

theorem mapM_none_of_mem {α : Type} (g : α → Option ℚ) (l : List α) (a : α) (ha : a ∈ l) (h : g a = none) :
    l.mapM g = none := by
  induction l with
  | nil => cases ha
  | cons b l ih =>
    rcases List.mem_cons.1 ha with rfl | ha
    · simp [List.mapM_cons, h]
    · simp [List.mapM_cons, ih ha]

theorem mapM_congr' {α : Type} (g g' : α → Option ℚ) (l : List α) (h : ∀ a ∈ l, g a = g' a) : l.mapM g = l.mapM g' := by
  induction l with
  | nil => rfl
  | cons b l ih =>
    rw [List.mapM_cons, List.mapM_cons, h b List.mem_cons_self, ih (fun a ha => h a (List.mem_cons_of_mem _ ha))]

/-- The rows a time window of `w` whole steps selects, when it fits in the frame. -/
theorem filter_window (dt w t : Nat) (hdt : 0 < dt) (hw : w ≤ t + 1) :
    (List.range (t + 1)).filter (fun s => decide ((t - s) * dt < w * dt)) = (List.range w).map (fun j => t + 1 - w + j) := by
  have h : t + 1 = (t + 1 - w) + w := by omega
  conv_lhs => rw [h, List.range_add, List.filter_append]
  have h1 : (List.range (t + 1 - w)).filter (fun s => decide ((t - s) * dt < w * dt)) = [] := by
    rw [List.filter_eq_nil_iff]
    intro s hs
    rw [List.mem_range] at hs
    simp only [decide_eq_true_eq, not_lt]
    exact Nat.mul_le_mul_right dt (by omega)
  have h2 : ((List.range w).map (fun j => t + 1 - w + j)).filter (fun s => decide ((t - s) * dt < w * dt))
      = (List.range w).map (fun j => t + 1 - w + j) := by
    rw [List.filter_eq_self]
    intro s hs
    simp only [List.mem_map, List.mem_range] at hs
    obtain ⟨j, hj, rfl⟩ := hs
    simp only [decide_eq_true_eq]
    exact Nat.mul_lt_mul_of_pos_right (by omega) hdt
  rw [h1, h2, List.nil_append]

/-- A rolling value over `w` whole steps: the function of the last `w` samples, NaN when one is missing. -/
theorem rollAt_whole (dt w : Nat) (hdt : 0 < dt) (hw : 0 < w) (f : List ℚ → Option ℚ) (c : Col) (t : Nat) :
    rollAt dt (w * dt) w f c t
      = (((List.range w).map (fun (j : Nat) => (t : Int) - w + 1 + j)).mapM (sample c)).bind f := by
  by_cases h : w ≤ t + 1
  · unfold rollAt window
    rw [filter_window dt w t hdt h]
    have e : ((List.range w).map (fun j => t + 1 - w + j)).map (fun (s : Nat) => sample c (s : Int))
        = ((List.range w).map (fun (j : Nat) => (t : Int) - w + 1 + j)).map (sample c) := by
      rw [List.map_map, List.map_map]
      apply List.map_congr_left
      intro j hj
      simp only [Function.comp]
      congr 1
      omega
    rw [e, ← mapM_map_id]
    set L := ((List.range w).map (fun (j : Nat) => (t : Int) - w + 1 + j)).map (sample c) with hL
    have hlen : L.length = w := by simp [hL]
    rcases obs_all L with ⟨h1, h2⟩ | ⟨h1, h2⟩
    · simp only [h2]
      rw [if_pos (by omega)]; rfl
    · simp only [h2]
      rw [if_neg (by omega)]; rfl
  · have hn : ((List.range w).map (fun (j : Nat) => (t : Int) - w + 1 + j)).mapM (sample c) = none := by
      apply mapM_none_of_mem _ _ ((t : Int) - w + 1)
      · exact List.mem_map.2 ⟨0, List.mem_range.2 hw, by simp⟩
      · exact sample_neg _ _ (by omega)
    rw [hn]
    unfold rollAt window
    have hl : (((List.range (t + 1)).filter (fun s => decide ((t - s) * dt < w * dt))).map
        (fun (s : Nat) => sample c (s : Int))).length ≤ t + 1 := by
      rw [List.length_map]
      exact (List.length_filter_le _ _).trans (by simp)
    have := List.length_filterMap_le id (((List.range (t + 1)).filter
      (fun s => decide ((t - s) * dt < w * dt))).map (fun (s : Nat) => sample c (s : Int)))
    rw [if_pos (by omega)]
    rfl

/-- Shifted rolling value over whole steps. -/
theorem shift_rolling_whole (dt w : Nat) (hdt : 0 < dt) (hw : 0 < w) (f : List ℚ → Option ℚ) (c : Col) (L : Int)
    (t : Nat) (_ht : t < c.length) :
    sample (rolling dt (w * dt) w f c) ((t : Int) - L)
      = (((List.range w).map (fun (j : Nat) => (t : Int) - L - w + 1 + j)).mapM (sample c)).bind f := by
  have key : ∀ i : Int, (i < 0 ∨ (c.length : Int) ≤ i) →
      ((List.range w).map (fun (j : Nat) => i - w + 1 + j)).mapM (sample c) = none := by
    intro i hi
    apply mapM_none_of_mem _ _ i
    · exact List.mem_map.2 ⟨w - 1, List.mem_range.2 (by omega), by omega⟩
    · rcases hi with hi | hi
      · exact sample_neg _ _ hi
      · exact sample_out _ _ hi
  rcases lt_or_ge ((t : Int) - L) 0 with h | h
  · rw [sample_neg _ _ h, key _ (Or.inl h)]; rfl
  · rcases lt_or_ge ((t : Int) - L) c.length with h' | h'
    · obtain ⟨r, hr⟩ : ∃ r : Nat, (t : Int) - L = r := ⟨((t : Int) - L).toNat, by omega⟩
      rw [hr, sample_of_get _ r _ (rolling_get _ _ _ _ _ _ (by omega)), rollAt_whole dt w hdt hw]
    · rw [sample_out _ _ (by rw [rolling_length]; exact h'), key _ (Or.inr h')]; rfl

end PyF.Transform
