import Verif.FoldPic.Props

/-!
C328: the runs whose lengths set the step of the picture, in terms of the two masks.
-/

namespace PyF.FoldPic

open PyF

/-- Row `j` is in neither mask. -/
def skippedAt (tr te : List Bool) (j : ℕ) : Bool := tr[j]? == some false && te[j]? == some false

/-- Rows `i + 1` to `i + d` are all skipped or all used, and the rows before and after them are the other way. -/
def Run (s : ℕ → Bool) (n i d : ℕ) : Prop :=
  1 ≤ d ∧ i + d + 1 < n ∧ s i ≠ s (i + 1) ∧ s (i + d) ≠ s (i + d + 1) ∧ ∀ j, 1 ≤ j → j < d → s (i + j) = s (i + j + 1)

theorem mem_changes (m : List Bool) (i : ℕ) : i ∈ changes m ↔ i + 1 < m.length ∧ m[i]? ≠ m[i + 1]? := by
  unfold changes
  rw [List.mem_filter, List.mem_range, bne_iff_ne]
  constructor
  · rintro ⟨a, b⟩; exact ⟨by omega, b⟩
  · rintro ⟨a, b⟩; exact ⟨by omega, b⟩

theorem mem_diffs (l : List ℕ) (d : ℕ) : d ∈ diffs l ↔ ∃ (k : ℕ) (h : k + 1 < l.length), d = l[k + 1] - l[k] := by
  unfold diffs
  rw [List.mem_iff_getElem]
  constructor
  · rintro ⟨k, hk, h⟩
    have hk' : k + 1 < l.length := by
      rw [List.length_zipWith, List.length_tail] at hk
      omega
    refine ⟨k, hk', ?_⟩
    rw [List.getElem_zipWith, List.getElem_tail] at h
    exact h.symm
  · rintro ⟨k, hk, h⟩
    refine ⟨k, ?_, ?_⟩
    · rw [List.length_zipWith, List.length_tail]
      omega
    · rw [List.getElem_zipWith, List.getElem_tail]
      exact h.symm

theorem mem_diffs_changes (m : List Bool) (s : ℕ → Bool) (hs : ∀ j < m.length, m[j]? = some (s j)) (d : ℕ) : d ∈ diffs (changes m) ↔ ∃ i, Run s m.length i d := by
  have hpw : (changes m).Pairwise (· < ·) := List.pairwise_lt_range.filter _
  have hch : ∀ i, i ∈ changes m ↔ i + 1 < m.length ∧ s i ≠ s (i + 1) := by
    intro i
    rw [mem_changes]
    constructor
    · rintro ⟨a, b⟩
      refine ⟨a, fun h => b ?_⟩
      rw [hs i (by omega), hs (i + 1) a, h]
    · rintro ⟨a, b⟩
      refine ⟨a, fun h => b ?_⟩
      rw [hs i (by omega), hs (i + 1) a] at h
      exact Option.some.inj h
  have hlt : ∀ (a b : ℕ) (ha : a < (changes m).length) (hb : b < (changes m).length), a < b → (changes m)[a] < (changes m)[b] := fun a b ha hb h =>
    List.pairwise_iff_getElem.1 hpw a b ha hb h
  rw [mem_diffs]
  constructor
  · rintro ⟨k, hk, hd⟩
    have h1 := hlt k (k + 1) (by omega) hk (by omega)
    have c1 := (hch _).1 (List.getElem_mem (by omega : k < (changes m).length))
    have c2 := (hch _).1 (List.getElem_mem hk)
    have hsum : (changes m)[k] + d = (changes m)[k + 1] := by omega
    refine ⟨(changes m)[k], by omega, by omega, c1.2, ?_, ?_⟩
    · rw [hsum]; exact c2.2
    · intro j h1j hjd
      by_contra hne
      have hmem : (changes m)[k] + j ∈ changes m := (hch _).2 ⟨by omega, hne⟩
      obtain ⟨t, ht, he⟩ := List.mem_iff_getElem.1 hmem
      rcases Nat.lt_trichotomy t k with h | h | h
      · have := hlt t k ht (by omega) h; omega
      · subst h; omega
      · rcases Nat.lt_or_ge (k + 1) t with h' | h'
        · have := hlt (k + 1) t hk ht h'; omega
        · have : t = k + 1 := by omega
          subst this; omega
  · rintro ⟨i, h1, h2, h3, h4, h5⟩
    obtain ⟨k, hk, hki⟩ := List.mem_iff_getElem.1 ((hch i).2 ⟨by omega, h3⟩)
    obtain ⟨t, ht, hti⟩ := List.mem_iff_getElem.1 ((hch (i + d)).2 ⟨by omega, h4⟩)
    have hkt : k < t := by
      by_contra hge
      rcases Nat.lt_or_ge t k with h | h
      · have := hlt t k ht hk h; omega
      · have : t = k := by omega
        subst this; omega
    have hk1 : k + 1 < (changes m).length := by omega
    refine ⟨k, hk1, ?_⟩
    rcases Nat.lt_or_ge (k + 1) t with h | h
    · exfalso
      have a1 := hlt k (k + 1) hk hk1 (by omega)
      have a2 := hlt (k + 1) t hk1 ht h
      have c := (hch _).1 (List.getElem_mem hk1)
      have := h5 ((changes m)[k + 1] - i) (by omega) (by omega)
      rw [show i + ((changes m)[k + 1] - i) = (changes m)[k + 1] by omega] at this
      exact c.2 this
    · have : t = k + 1 := by omega
      subst this
      omega

theorem buffers_get (tr te : List Bool) (hl : tr.length = te.length) (j : ℕ) (hj : j < (buffers tr te).length) : (buffers tr te)[j]? = some (skippedAt tr te j) := by
  have hlen : (buffers tr te).length = tr.length := by
    unfold buffers
    rw [List.length_zipWith, ← hl, Nat.min_self]
  have h1 : j < tr.length := by omega
  have h2 : j < te.length := by omega
  unfold buffers skippedAt
  rw [List.getElem?_zipWith, List.getElem?_eq_getElem h1, List.getElem?_eq_getElem h2]
  cases tr[j] <;> cases te[j] <;> rfl

/-- C328 (the step of the picture): the numbers between whose smallest and largest the step lies are the lengths of the inner runs of skipped and of used rows. -/
theorem C328_runs (tr te : List Bool) (hl : tr.length = te.length) :
    ((∃ x ∈ buffers tr te, x = true) ↔ ∃ j, skippedAt tr te j = true) ∧
    ∀ d, d ∈ diffs (changes (buffers tr te)) ↔ ∃ i, Run (skippedAt tr te) tr.length i d := by
  have hlen : (buffers tr te).length = tr.length := by
    unfold buffers
    rw [List.length_zipWith, ← hl, Nat.min_self]
  constructor
  · constructor
    · rintro ⟨x, hx, rfl⟩
      obtain ⟨j, hj, h⟩ := List.mem_iff_getElem.1 hx
      have := buffers_get tr te hl j hj
      rw [List.getElem?_eq_getElem hj, h] at this
      exact ⟨j, (Option.some.inj this).symm⟩
    · rintro ⟨j, h⟩
      have hj : j < tr.length := by
        by_contra hge
        unfold skippedAt at h
        rw [List.getElem?_eq_none (by omega)] at h
        cases h
      have := buffers_get tr te hl j (by omega)
      exact ⟨true, List.mem_of_getElem? (this.trans (by rw [h])), rfl⟩
  · intro d
    rw [mem_diffs_changes (buffers tr te) (skippedAt tr te) (fun j hj => buffers_get tr te hl j hj), hlen]

end PyF.FoldPic
