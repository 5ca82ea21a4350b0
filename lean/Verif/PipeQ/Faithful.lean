import Verif.PipeQ.Props
import Verif.Quantile.Lemmas
import Mathlib.Data.Rat.Cast.Order
import Mathlib.Data.Rat.Floor
import Mathlib.Data.Fintype.Card

/-!
C317: the quantiles of the pipeline, over the real numbers, are those of C05 wherever these are defined.
-/

namespace PyF.PipeQ

theorem insertionSort_cast (l : List ℚ) : (l.map (fun (x : ℚ) => (x : ℝ))).insertionSort (· ≤ ·) = (l.insertionSort (· ≤ ·)).map (fun (x : ℚ) => (x : ℝ)) := by
  refine List.Perm.eq_of_pairwise (le := (· ≤ ·)) (fun a b _ _ h1 h2 => le_antisymm h1 h2) (List.pairwise_insertionSort _ _) ?_ ?_
  · rw [List.pairwise_map]
    exact (Quantile.sort_pairwise l).imp (fun h => by exact_mod_cast h)
  · exact (List.perm_insertionSort _ _).trans ((List.perm_insertionSort _ l).symm.map _)

theorem getD_cast (l : List ℚ) (i : ℕ) : (l.map (fun (x : ℚ) => (x : ℝ))).getD i 0 = ((l.getD i 0 : ℚ) : ℝ) := by
  rw [List.getD_eq_getElem?_getD, List.getD_eq_getElem?_getD, List.getElem?_map]
  cases l[i]? with
  | none => exact Rat.cast_zero.symm
  | some v => rfl

/-- On rational errors and levels the quantile of the pipeline is that of C05. -/
theorem C317_quantile (l : List ℚ) (q : ℚ) : quantile (l.map (fun (x : ℚ) => (x : ℝ))) (q : ℝ) = ((Quantile.quantileVal l q : ℚ) : ℝ) := by
  have hv : (q : ℝ) * ((l.length : ℝ) - 1) = ((q * ((l.length : ℚ) - 1) : ℚ) : ℝ) := by push_cast; ring
  unfold quantile Quantile.quantileVal Quantile.lerpAt
  simp only [insertionSort_cast, List.length_map, hv, Rat.floor_cast, getD_cast, List.length_insertionSort]
  push_cast
  ring

variable {m : ℕ}

/-- Every hour of the day occurs among the errors. -/
def AllHours (errs : List (Fin 24 × (Fin m → ℝ))) : Prop := ∀ h : Fin 24, ∃ r ∈ errs, r.1 = h

theorem dedup_hours (errs : List (Fin 24 × (Fin m → ℝ))) : (errs.map Prod.fst).dedup.length = 24 ↔ AllHours errs := by
  have hc : (errs.map Prod.fst).dedup.length = (errs.map Prod.fst).toFinset.card := (List.card_toFinset _).symm
  rw [hc]
  constructor
  · intro h k
    have hu : (errs.map Prod.fst).toFinset = Finset.univ := Finset.card_eq_iff_eq_univ _ |>.1 (by rw [h, Fintype.card_fin])
    have : k ∈ (errs.map Prod.fst).toFinset := by rw [hu]; exact Finset.mem_univ k
    obtain ⟨r, hr, e⟩ := List.mem_map.1 (List.mem_toFinset.1 this)
    exact ⟨r, hr, e⟩
  · intro h
    have hu : (errs.map Prod.fst).toFinset = Finset.univ := by
      rw [Finset.eq_univ_iff_forall]
      intro k
      obtain ⟨r, hr, e⟩ := h k
      exact List.mem_toFinset.2 (List.mem_map.2 ⟨r, hr, e⟩)
    rw [hu, Finset.card_univ, Fintype.card_fin]

open Classical in
/-- The error table: refused for a level outside of [0, 1], else the quantiles of the errors of the hour if every hour occurs, and of all errors if one is missing. -/
theorem C317_table (qv : List ℝ) (errs : List (Fin 24 × (Fin m → ℝ))) :
    ((∃ q ∈ qv, q < 0 ∨ 1 < q) → errTable qv errs = .error .valueError) ∧
    ((∀ q ∈ qv, 0 ≤ q ∧ q ≤ 1) → ∃ t, errTable qv errs = .ok t ∧ ∀ h j, t h j = qv.map (quantile
      ((errs.filter (fun r => decide (AllHours errs → r.1 = h))).map (fun r => r.2 j)))) := by
  constructor
  · intro h
    unfold errTable
    rw [if_pos h]
  · intro h
    refine ⟨_, by
      unfold errTable
      rw [if_neg (by
        rintro ⟨q, hq, hlt⟩
        rcases hlt with hlt | hlt
        · exact absurd (h q hq).1 (not_le.2 hlt)
        · exact absurd (h q hq).2 (not_le.2 hlt))], ?_⟩
    intro k j
    unfold group
    by_cases ha : AllHours errs
    · rw [if_neg (not_not.2 ((dedup_hours errs).2 ha))]
      congr 3
      apply List.filter_congr
      intro r _
      by_cases e : r.1 = k <;> simp [e, ha]
    · rw [if_pos (fun he => ha ((dedup_hours errs).1 he))]
      congr 3
      symm
      rw [List.filter_eq_self]
      intro r _
      simp [ha]

end PyF.PipeQ
