import Verif.Quantile.Props

namespace PyF.Quantile
open PyF

theorem forHours_error {T : Nat} {f : Fin 24 → Except PyErr (Table T)} {e : PyErr} (h : ∀ k, f k = .error e) : forHours f = .error e := by
  unfold forHours
  have hs : (List.finRange 24).findSome? (fun h => errOf (f h)) = some e := by
    have : (fun h : Fin 24 => errOf (f h)) = fun _ => some e := by funext k; rw [h k]; rfl
    rw [this]
    rfl
  rw [hs]

theorem levels_bad {qv : List ℚ} (h : ¬ ValidLevels qv) : qv.any (fun q => q < 0 || 1 < q) = true := by
  by_contra hc
  rw [Bool.not_eq_true, List.any_eq_false] at hc
  apply h
  intro q hq
  have := hc q hq
  simpa using this

/-- **C06 (d).** When the error distribution can be fitted, conditional or not: a level outside [0, 1] is a `ValueError`, otherwise no rows are an
`IndexError`, and in all other cases fitting succeeds, with a table for each hour or one table according to `conditional_to_hour`. -/
theorem C06_fits_iff {T : Nat} (c : Bool) (qv : List ℚ) (rows : List (ErrRow T)) :
    (¬ ValidLevels qv → estimateErrDistr c qv rows = .error .valueError) ∧
      (ValidLevels qv → rows = [] → estimateErrDistr c qv rows = .error .indexError) ∧
      (ValidLevels qv → rows ≠ [] → if c = true then ∃ f, estimateErrDistr c qv rows = .ok (.byHour f) else ∃ t, estimateErrDistr c qv rows = .ok (.pooled t)) := by
  refine ⟨fun h => ?_, fun hq h => ?_, fun hq h => ?_⟩
  · have hb := levels_bad h
    have hk : ∀ l : List (ErrRow T), quantileTable qv l = .error .valueError := fun l => by unfold quantileTable; rw [if_pos hb]
    cases c with
    | false => simp only [estimateErrDistr, hk]; rfl
    | true =>
      unfold estimateErrDistr
      rw [if_pos rfl, forHours_error (fun _ => hk _), forHours_error (fun _ => hk _)]
      split <;> rfl
  · subst h
    have hk : quantileTable qv ([] : List (ErrRow T)) = .error .indexError := by
      unfold quantileTable
      rw [if_neg (by rw [levels_ok hq]; simp)]
      rfl
    cases c with
    | false => simp only [estimateErrDistr, hk]; rfl
    | true =>
      unfold estimateErrDistr
      rw [if_pos rfl, if_pos (by simp), forHours_error (fun _ => hk)]
  · cases c with
    | true => rw [if_pos rfl]; obtain ⟨f, hf, _⟩ := fitted_table qv rows hq h; exact ⟨f, hf⟩
    | false =>
      rw [if_neg (by simp)]
      refine ⟨fun j => qv.map (quantileVal (rows.map (fun r => r.err j))), ?_⟩
      unfold estimateErrDistr quantileTable
      rw [if_neg (by simp), if_neg (by rw [levels_ok hq]; simp), if_neg (by simpa using h)]

example : ¬ ValidLevels [1/10, 3/2] := by intro h; have := (h (3/2) (by simp)).2; norm_num at this
example : ValidLevels [1/10, 1/2] ∧ ([⟨3, fun _ => 1⟩] : List (ErrRow 1)) ≠ [] := by
  refine ⟨?_, by simp⟩
  intro q hq
  simp only [List.mem_cons, List.not_mem_nil, or_false] at hq
  rcases hq with rfl | rfl <;> norm_num

end PyF.Quantile
