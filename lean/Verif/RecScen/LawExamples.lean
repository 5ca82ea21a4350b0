import Verif.RecScen.Law
import Mathlib.Probability.UniformOn
import Mathlib.Data.Real.Basic

/-! Two rows of errors at hour 0, one at hour 5, drawn by the toss of a coin. -/

namespace PyF.RecScen.Law
open PyF MeasureTheory ProbabilityTheory

noncomputable def errs : Frame ℝ := ⟨2, [(0, [3, 1]), (5, [-1, 1]), (0, [1, 1])]⟩
noncomputable def hat : Frame ℝ := ⟨2, [(0, [10, 4]), (5, [0, 0])]⟩

noncomputable abbrev coin : Measure (Fin 2) := uniformOn Set.univ

instance : IsProbabilityMeasure coin := isProbabilityMeasure_uniformOn Set.finite_univ Set.univ_nonempty

def draw : Fin 2 → ℕ → ℕ → ℕ → ℕ := fun ω h _ _ => if h = 0 then ω else 0

theorem n0 : nErr errs 0 = 2 := by simp [nErr, errs]
theorem n5 : nErr errs 5 = 1 := by simp [nErr, errs]

theorem uniform : Uniform coin errs draw where
  meas _ _ _ _ := MeasurableSet.of_discrete
  lt ω h s k hq := by
    have : h = 0 ∨ h = 5 := by
      obtain ⟨q, hm, rfl⟩ := hq
      simp only [errs, List.mem_cons, List.not_mem_nil, or_false] at hm
      rcases hm with rfl | rfl | rfl <;> simp
    rcases this with rfl | rfl
    · rw [n0]; simp only [draw, if_true]; exact ω.2
    · rw [n5]; simp [draw]
  unif h s k r hr := by
    by_cases h0 : h = 0
    · subst h0
      rw [n0] at hr ⊢
      have : {ω : Fin 2 | draw ω 0 s k = r} = {⟨r, hr⟩} := by
        ext ω
        simp [draw, Fin.ext_iff]
      rw [this, measureReal_def, uniformOn_univ]
      simp
    · by_cases h5 : h = 5
      · subst h5
        rw [n5] at hr ⊢
        have : {ω : Fin 2 | draw ω 5 s k = r} = Set.univ := by
          ext ω
          simp only [draw, Set.mem_ofPred_eq, Set.mem_univ, iff_true]
          rw [if_neg (by norm_num)]
          omega
        rw [this, probReal_univ]
        simp
      · have : nErr errs h = 0 := by
          simp only [nErr, errs]
          simp [Ne.symm h0, Ne.symm h5]
        omega

theorem errs_ok : errs.Ok := by simp [Frame.Ok, errs]
theorem hat_ok : hat.Ok := by simp [Frame.Ok, hat]
theorem covers : Covers errs hat := by simp [Covers, errs, hat]

/-- The mean of the scenarios is the forecast 10 plus the mean error 2. -/
example : ∫ ω, valueOf 0 1 0 (getScenarios errs hat 3 "unconditional" (draw ω)) ∂coin = 12 := by
  rw [C296_mean coin errs hat errs_ok hat_ok 3 (by norm_num) (Or.inl rfl) covers draw uniform 0 (0, [10, 4]) rfl 1 (by norm_num) 0 (by simp [hat]), n0]
  simp [errs]
  norm_num

open Classical in
/-- Half of the scenarios exceed twelve in the first series. -/
example : coin.real {ω | ∃ a x, getScenarios errs hat 3 "unconditional" (draw ω) = .ok (.array a) ∧ slice a 0 1 = some x ∧ x.getD 0 0 > 12} = 1 / 2 := by
  rw [C296_law coin errs hat errs_ok hat_ok 3 (by norm_num) (Or.inl rfl) covers draw uniform 0 (0, [10, 4]) rfl 1 (by norm_num), n0]
  have : (Finset.range 2).filter (fun r => ∃ e x, (errs.rows.filter (fun q => decide (q.1 = 0)))[r]? = some (0, e) ∧ IsSum errs.width [10, 4] e x ∧ x.getD 0 0 > 12) = {0} := by
    ext r
    simp only [Finset.mem_filter, Finset.mem_range, Finset.mem_singleton]
    have hf : errs.rows.filter (fun q => decide (q.1 = 0)) = [(0, [3, 1]), (0, [1, 1])] := by simp [errs]
    rw [hf]
    constructor
    · rintro ⟨hr, e, x, h1, h2, h3⟩
      by_contra hne
      obtain rfl : r = 1 := by omega
      simp only [List.getElem?_cons_succ, List.getElem?_cons_zero, Option.some.injEq, Prod.mk.injEq, true_and] at h1
      subst h1
      obtain ⟨b, hb, hb'⟩ := h2.2 0 10 rfl
      simp [errs] at hb
      rw [List.getD_eq_getElem?_getD, hb', ← hb] at h3
      norm_num at h3
    · rintro rfl
      refine ⟨by norm_num, [3, 1], [13, 5], rfl, ⟨rfl, ?_⟩, by norm_num⟩
      intro j a hj
      match j, hj with
      | 0, hj => cases hj; exact ⟨3, by simp [errs], by norm_num⟩
      | 1, hj => cases hj; exact ⟨1, by simp [errs], by norm_num⟩
      | j + 2, hj => simp at hj
  exact (congrArg (fun s : Finset ℕ => (s.card : ℝ) / (2 : ℕ)) this).trans (by norm_num)

end PyF.RecScen.Law
