import Verif.Lstm.Props
import Mathlib.Data.List.Nodup

/-! C129 in terms of the arrays handed to keras. -/

namespace PyF.Lstm
open PyF

theorem mem_targets (h p : ℕ) (x : List ℚ) (e : List (List ℚ)) (s : ℕ) (v : ℚ) (hp : ∀ i, i < totalSamples h p x.length → i + h + p ≤ x.length) :
    (v ∈ ((fitArrays h p x e).first s).y.flatten ↔
      ∃ i k, i < totalSamples h p x.length ∧ i < s ∧ k < p ∧ x[i + h + k]? = some v) ∧
    (v ∈ ((fitArrays h p x e).rest s).y.flatten ↔
      ∃ i k, i < totalSamples h p x.length ∧ s ≤ i ∧ k < p ∧ x[i + h + k]? = some v) := by
  have row : ∀ i, i < totalSamples h p x.length → (v ∈ (x.drop (i + h)).take p ↔ ∃ k, k < p ∧ x[i + h + k]? = some v) := by
    intro i _
    rw [List.mem_iff_getElem?]
    constructor
    · rintro ⟨k, hk⟩
      have hkp : k < p := by
        by_contra hc
        rw [List.getElem?_eq_none (by rw [List.length_take]; omega)] at hk
        cases hk
      rw [List.getElem?_take_of_lt hkp, List.getElem?_drop] at hk
      exact ⟨k, hkp, hk⟩
    · rintro ⟨k, hkp, hk⟩
      refine ⟨k, ?_⟩
      rw [List.getElem?_take_of_lt hkp, List.getElem?_drop]
      exact hk
  unfold Arrays.first Arrays.rest fitArrays
  simp only [List.mem_flatten]
  constructor
  · constructor
    · rintro ⟨r, hr, hv⟩
      obtain ⟨i, hi⟩ := List.mem_iff_getElem?.1 hr
      have his : i < s := by
        by_contra hc
        rw [List.getElem?_eq_none (by rw [List.length_take]; omega)] at hi
        cases hi
      rw [List.getElem?_take_of_lt his, List.getElem?_map] at hi
      have hit : i < totalSamples h p x.length := by
        by_contra hc
        rw [List.getElem?_eq_none (by simpa using hc)] at hi
        cases hi
      rw [List.getElem?_range hit] at hi
      obtain rfl := Option.some.inj hi
      obtain ⟨k, hk, hx⟩ := (row i hit).1 hv
      exact ⟨i, k, hit, his, hk, hx⟩
    · rintro ⟨i, k, hit, his, hk, hx⟩
      refine ⟨(x.drop (i + h)).take p, ?_, (row i hit).2 ⟨k, hk, hx⟩⟩
      apply List.mem_iff_getElem?.2
      refine ⟨i, ?_⟩
      rw [List.getElem?_take_of_lt his, List.getElem?_map, List.getElem?_range hit]
      rfl
  · constructor
    · rintro ⟨r, hr, hv⟩
      obtain ⟨i, hi⟩ := List.mem_iff_getElem?.1 hr
      rw [List.getElem?_drop, List.getElem?_map] at hi
      have hit : s + i < totalSamples h p x.length := by
        by_contra hc
        rw [List.getElem?_eq_none (by simpa using hc)] at hi
        cases hi
      rw [List.getElem?_range hit] at hi
      obtain rfl := Option.some.inj hi
      obtain ⟨k, hk, hx⟩ := (row (s + i) hit).1 hv
      exact ⟨s + i, k, hit, by omega, hk, hx⟩
    · rintro ⟨i, k, hit, his, hk, hx⟩
      refine ⟨(x.drop (i + h)).take p, ?_, (row i hit).2 ⟨k, hk, hx⟩⟩
      apply List.mem_iff_getElem?.2
      refine ⟨i - s, ?_⟩
      rw [List.getElem?_drop, List.getElem?_map, show s + (i - s) = i by omega, List.getElem?_range hit]
      rfl

/-- **C129** (defect). A signal of pairwise different values, split after `s` samples with samples on both sides: some value
is a target of training and of validation exactly if the horizon is of two steps or more. -/
theorem C129_overlap (h p : ℕ) (x : List ℚ) (e : List (List ℚ)) (hx : x.Nodup) (s : ℕ) (hs : 0 < s) (hn : s < totalSamples h p x.length) :
    (∃ v, v ∈ ((fitArrays h p x e).first s).y.flatten ∧ v ∈ ((fitArrays h p x e).rest s).y.flatten) ↔ 2 ≤ p := by
  have hp : ∀ i, i < totalSamples h p x.length → i + h + p ≤ x.length := by
    intro i hi
    unfold totalSamples at hi
    omega
  constructor
  · rintro ⟨v, h1, h2⟩
    obtain ⟨i, k, hit, his, hk, hv⟩ := (mem_targets h p x e s v hp).1.1 h1
    obtain ⟨j, l, hjt, hjs, hl, hw⟩ := (mem_targets h p x e s v hp).2.1 h2
    have a := hp i hit
    have b := hp j hjt
    have : i + h + k = j + h + l := (List.getElem?_inj (by omega) hx).1 (hv.trans hw.symm)
    omega
  · intro h2
    have b := hp s hn
    have hv : x[s + h]? = some (x[s + h]'(by omega)) := List.getElem?_eq_getElem (by omega)
    refine ⟨x[s + h]'(by omega), ?_, ?_⟩
    · refine (mem_targets h p x e s _ hp).1.2 ⟨s - 1, 1, by omega, by omega, by omega, ?_⟩
      rw [show s - 1 + h + 1 = s + h by omega]
      exact hv
    · exact (mem_targets h p x e s _ hp).2.2 ⟨s, 0, hn, le_refl _, by omega, hv⟩

/-- Six values, history of two, horizon of two, split after one sample. -/
example : ∃ v, v ∈ ((fitArrays 2 2 [1, 2, 3, 4, 5, 6] []).first 1).y.flatten ∧
    v ∈ ((fitArrays 2 2 [1, 2, 3, 4, 5, 6] []).rest 1).y.flatten :=
  (C129_overlap 2 2 [1, 2, 3, 4, 5, 6] [] (by decide +kernel) 1 (by decide) (by decide)).2 (le_refl 2)

/-- With a horizon of one step there is none. -/
example : ¬ ∃ v, v ∈ ((fitArrays 2 1 [1, 2, 3, 4, 5, 6] []).first 2).y.flatten ∧
    v ∈ ((fitArrays 2 1 [1, 2, 3, 4, 5, 6] []).rest 2).y.flatten := by
  rw [C129_overlap 2 1 [1, 2, 3, 4, 5, 6] [] (by decide +kernel) 2 (by decide) (by decide)]
  decide

end PyF.Lstm
