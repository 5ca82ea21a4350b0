import Verif.Brutal.Model
import Mathlib.Tactic.Ring
import Mathlib.Tactic.Linarith
import Mathlib.Tactic.FieldSimp

namespace PyF.Brutal

open PyF PyF.Tune PyF.Boost

/-- An affine change `v ↦ a * v + c` of the entries that are there. -/
def aff (a c : ℚ) : Option ℚ → Option ℚ := Option.map (fun v => a * v + c)

theorem aff_none (a c : ℚ) : aff a c none = none := rfl

theorem aff_some (a c v : ℚ) : aff a c (some v) = some (a * v + c) := rfl

theorem mapM_id_aff (a c : ℚ) (l : List (Option ℚ)) : (l.map (aff a c)).mapM id = (l.mapM id).map (fun v => v.map (fun x => a * x + c)) := by
  induction l with
  | nil => rfl
  | cons o l ih =>
    rw [List.map_cons, List.mapM_cons, List.mapM_cons, ih]
    cases o with
    | none => rfl
    | some v => cases h : l.mapM id <;> rfl

theorem sum_aff (a c : ℚ) (v : List ℚ) : (v.map (fun x => a * x + c)).sum = a * v.sum + c * v.length := by
  induction v with
  | nil => simp
  | cons x v ih =>
    simp only [List.map_cons, List.sum_cons, ih, List.length_cons]
    push_cast
    ring

theorem omean_aff (a c : ℚ) (l : List (Option ℚ)) : omean (l.map (aff a c)) = aff a c (omean l) := by
  unfold omean
  rw [mapM_id_aff]
  cases l.mapM id with
  | none => rfl
  | some v =>
    simp only [Option.map_some, Option.bind_some, List.map_eq_nil_iff]
    by_cases hv : v = []
    · rw [if_pos hv, if_pos hv]; rfl
    · rw [if_neg hv, if_neg hv, aff_some, sum_aff, List.length_map]
      have : (v.length : ℚ) ≠ 0 := by
        have := List.length_pos_of_ne_nil hv
        exact_mod_cast this.ne'
      congr 1
      field_simp

/-- Residuals `err'` that are `err` changed by `v ↦ a * v + c`. -/
theorem bootOf_aff (a c : ℚ) (rows : List Row) (err : List (Option ℚ)) (idx : List ℕ) (f : ℕ) :
    bootOf rows (err.map (aff a c)) idx f = (bootOf rows err idx f).map (fun r => (r.1, aff a c r.2)) := by
  unfold bootOf
  rw [List.map_map]
  apply List.map_congr_left
  intro i _
  simp only [Function.comp_apply, Prod.mk.injEq, true_and, List.getD_eq_getElem?_getD, List.getElem?_map]
  cases err[i]? <;> rfl

theorem response_aff (a c : ℚ) (inner : List ℚ) (boot : List (ℚ × Option ℚ)) (x : ℚ) :
    response inner (boot.map (fun r => (r.1, aff a c r.2))) x = aff a c (response inner boot x) := by
  unfold response
  rw [← omean_aff, List.filter_map, List.map_map, List.map_map]
  rfl

theorem osub_aff (a c : ℚ) (p q : Option ℚ) : (osub (aff a c p) (aff a c q)).map (fun d => d * d) = aff (a * a) 0 ((osub p q).map (fun d => d * d)) := by
  cases p with
  | none => rfl
  | some p =>
    cases q with
    | none => rfl
    | some q =>
      simp only [osub, aff, Option.map_some, Option.bind_some, Option.some.injEq]
      ring

theorem score_aff (a c : ℚ) (inner : List ℚ) (boot : List (ℚ × Option ℚ)) :
    score inner (boot.map (fun r => (r.1, aff a c r.2))) = aff (a * a) 0 (score inner boot) := by
  unfold score
  rw [← omean_aff, List.map_map, List.map_map]
  congr 1
  apply List.map_congr_left
  intro r _
  simp only [Function.comp_apply, response_aff, osub_aff]

theorem sle_aff (k : ℚ) (hk : 0 < k) (p q : Option ℚ) : sle (aff k 0 p) (aff k 0 q) = sle p q := by
  cases p with
  | none => rfl
  | some p =>
    cases q with
    | none => rfl
    | some q => simp only [sle, aff, Option.map_some, add_zero, mul_le_mul_iff_right₀ hk]

theorem argmin_aff (k : ℚ) (hk : 0 < k) (s : List (Option ℚ)) : argmin (s.map (aff k 0)) = argmin s := by
  have hn : ∀ o : Option ℚ, aff k 0 o = none ↔ o = none := fun o => by cases o <;> simp [aff]
  have h1 : none ∈ s.map (aff k 0) ↔ none ∈ s := by
    rw [List.mem_map]
    constructor
    · rintro ⟨o, ho, h⟩
      rwa [(hn o).1 h] at ho
    · intro h
      exact ⟨none, h, rfl⟩
  have h2 : (s.map (aff k 0)).idxOf none = s.idxOf none := by
    unfold List.idxOf
    rw [List.findIdx_map]
    congr 1
    funext o
    cases o <;> rfl
  have h3 : (s.map (aff k 0)).findIdx (fun v => (s.map (aff k 0)).all (fun w => sle v w)) = s.findIdx (fun v => s.all (fun w => sle v w)) := by
    rw [List.findIdx_map]
    congr 1
    funext v
    simp only [Function.comp_apply, List.all_map]
    congr 1
    funext w
    exact sle_aff k hk v w
  unfold argmin
  simp only [h1, h2, h3, List.map_eq_nil_iff]

theorem bootOf_fst_aff (a c : ℚ) (rows : List Row) (err : List (Option ℚ)) (idx : List ℕ) (f : ℕ) :
    (bootOf rows (err.map (aff a c)) idx f).map Prod.fst = (bootOf rows err idx f).map Prod.fst := by
  rw [bootOf_aff, List.map_map]
  rfl

theorem bestFeature_aff (a c : ℚ) (ha : a ≠ 0) (cuts : List ℚ → List ℚ) (nf : ℕ) (rows : List Row) (err : List (Option ℚ)) (idx : List ℕ) :
    bestFeature cuts nf rows (err.map (aff a c)) idx = bestFeature cuts nf rows err idx := by
  unfold bestFeature
  by_cases hn : nf = 0
  · rw [if_pos hn, if_pos hn]
  rw [if_neg hn, if_neg hn]
  by_cases hi : idx = []
  · rw [if_pos hi, if_pos hi]
  rw [if_neg hi, if_neg hi]
  refine Eq.trans ?_ (argmin_aff (a * a) (mul_self_pos.2 ha) _)
  congr 1
  rw [List.map_map]
  apply List.map_congr_left
  intro f _
  simp only [Function.comp_apply]
  rw [bootOf_fst_aff, bootOf_aff, score_aff]

theorem stage_aff (a c : ℚ) (cuts : List ℚ → List ℚ) (rows : List Row) (err : List (Option ℚ)) (idx : List ℕ) (f : ℕ) (x : Row) :
    stage cuts rows (err.map (aff a c)) idx f x = aff a c (stage cuts rows err idx f x) := by
  unfold stage
  rw [bootOf_fst_aff, bootOf_aff, response_aff]

theorem residual_aff (lr a c : ℚ) (rows : List Row) (err : List (Option ℚ)) (p p' : Row → Option ℚ) (h : ∀ x, p' x = aff a c (p x)) :
    residual lr rows (err.map (aff a c)) p' = (residual lr rows err p).map (aff a ((1 - lr) * c)) := by
  unfold residual
  induction err generalizing rows with
  | nil => simp
  | cons e err ih =>
    cases rows with
    | nil => simp
    | cons x rows =>
      rw [List.map_cons, List.zipWith_cons_cons, List.zipWith_cons_cons, List.map_cons, ih rows, h]
      congr 1
      cases e with
      | none => rfl
      | some e =>
        cases p x with
        | none => rfl
        | some v =>
          simp only [osub, aff, Option.map_some, Option.bind_some, Option.some.injEq]
          ring

/-- The stages fitted to changed residuals. -/
theorem fit_aff (lr a : ℚ) (ha : a ≠ 0) (cuts : List ℚ → List ℚ) (nf : ℕ) (rows : List Row) (idxs : List (List ℕ)) :
    ∀ (c : ℚ) (err : List (Option ℚ)),
      (∃ e, fit lr cuts nf rows idxs err = .error e ∧ fit lr cuts nf rows idxs (err.map (aff a c)) = .error e) ∨
      ∃ ps ps', fit lr cuts nf rows idxs err = .ok ps ∧ fit lr cuts nf rows idxs (err.map (aff a c)) = .ok ps' ∧ ps.length = idxs.length ∧ ps'.length = idxs.length ∧
        ∀ x, total lr x ps' = aff a (c * (1 - (1 - lr) ^ idxs.length)) (total lr x ps) := by
  induction idxs with
  | nil =>
    intro c err
    right
    exact ⟨[], [], rfl, rfl, rfl, rfl, fun x => by simp [total, aff]⟩
  | cons idx rest ih =>
    intro c err
    rw [fit, fit, bestFeature_aff a c ha]
    cases bestFeature cuts nf rows err idx with
    | error e => left; exact ⟨e, rfl, rfl⟩
    | ok f =>
      simp only
      rw [residual_aff lr a c rows err (stage cuts rows err idx f) _ (fun x => stage_aff a c cuts rows err idx f x)]
      rcases ih ((1 - lr) * c) (residual lr rows err (stage cuts rows err idx f)) with ⟨e, h1, h2⟩ | ⟨ps, ps', h1, h2, h3, h4, h5⟩
      · left
        rw [h1, h2]
        exact ⟨e, rfl, rfl⟩
      · right
        rw [h1, h2]
        refine ⟨_, _, rfl, rfl, by simp [h3], by simp [h4], fun x => ?_⟩
        rw [total, total, stage_aff, h5]
        cases stage cuts rows err idx f x with
        | none => rfl
        | some v =>
          cases total lr x ps with
          | none => rfl
          | some w =>
            simp only [aff, Option.map_some, Option.bind_some, Option.some.injEq, List.length_cons, pow_succ]
            ring

end PyF.Brutal
