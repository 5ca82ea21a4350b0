import Verif.FkRun.Noise
import Verif.FkRun.Examples

/-! Examples for C338. -/

namespace PyF.FkRun
open PyF

/-- A history in which the first of two experts gains: the matrix is not NaN. -/
example : ∃ M : Mat 2, corrcoef [some ![1 / 2, 1 / 2], some ![3 / 4, 1 / 4]] = some M ∧ IsCorr M ∧ ∃ u : Vec 2, (∀ a, 0 < u a) ∧ ∀ a, ∑ b, M a b * u b = 0 := by
  have hs : ∃ M : Mat 2, corrcoef [some ![1 / 2, 1 / 2], some ![3 / 4, 1 / 4]] = some M := by
    unfold corrcoef
    simp only [List.mapM_cons, List.mapM_nil, id]
    rw [show (do
      let a ← some (![1 / 2, 1 / 2] : Vec 2)
      let b ← (do
        let c ← some (![3 / 4, 1 / 4] : Vec 2)
        let d ← pure []
        pure (c :: d))
      pure (a :: b) : Option (List (Vec 2))) = some [![1 / 2, 1 / 2], ![3 / 4, 1 / 4]] from rfl]
    simp only
    rw [if_neg]
    · exact ⟨_, rfl⟩
    · rintro ⟨a, ha⟩
      fin_cases a <;> norm_num [colCov, colMean] at ha
  obtain ⟨M, hM⟩ := hs
  refine ⟨M, hM, corrcoef_isCorr _ M hM, corrcoef_singular _ M hM 1 ?_⟩
  intro v hv
  simp only [List.mem_cons, Option.some.injEq, List.not_mem_nil, or_false] at hv
  rcases hv with rfl | rfl <;> norm_num [Fin.sum_univ_two]

/-- A first fit of two experts on three rows, more than `m = 2`: the calls of C338 succeed, and what is stored is NaN or the fixed matrix. -/
example : ∃ o' rows, call (exC 1) exE { experts := 0, states := fresh (exC 1) } [1, 2, 4] true = .ok (o', rows) ∧
    Noise (exC 1) (fun M => M = !![1, -1; -1, 1]) o'.states ∧
    ((o'.states.Q = none ∧ o'.states.R = none) ∨ ∃ M, o'.states.Q = some M ∧ o'.states.R = some ((10 : ℝ) • M) ∧ IsCorr M) := by
  obtain ⟨o', rows, h, -⟩ := C204_first_rows (exC 1) exE { experts := 0, states := fresh (exC 1) } [1, 2, 4] true (by simp [exE])
  exact ⟨o', rows, h, C338_two _ _ _ _ _ _ _ h, C338_replaced _ _ _ _ _ (by simp [exE, exC]) _ h⟩

end PyF.FkRun
