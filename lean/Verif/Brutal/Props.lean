import Verif.Brutal.Lemmas
import Mathlib.Tactic.NormNum

/-!
C333: what `BrutalRegressor` does with an offset of the targets. Its stages start from the targets themselves, not from their deviations from a mean.
-/

namespace PyF.Brutal

open PyF PyF.Tune PyF.Boost

/-- The same draws and targets `a * y + c`: the same exception, or forecasts NaN in the same rows and otherwise `a` times the former forecast plus
`c * (1 - (1 - lr) ^ n)`, with `n` iterations. -/
theorem C333_affine (lr a c : ℚ) (ha : a ≠ 0) (cuts : List ℚ → List ℚ) (nf : ℕ) (rows : List Row) (y : List ℚ) (idxs : List (List ℕ)) (x : Row) :
    fitPredict lr cuts nf rows (y.map (fun v => a * v + c)) idxs x
      = (fitPredict lr cuts nf rows y idxs x).map (Option.map (fun p => a * p + c * (1 - (1 - lr) ^ idxs.length))) := by
  have hy : (y.map (fun v => a * v + c)).map some = (y.map some).map (aff a c) := by
    rw [List.map_map, List.map_map]; rfl
  unfold fitPredict
  rw [hy]
  rcases fit_aff lr a ha cuts nf rows idxs c (y.map some) with ⟨e, h1, h2⟩ | ⟨ps, ps', h1, h2, h3, h4, h5⟩
  · rw [h1, h2]; rfl
  · rw [h1, h2]
    cases ps with
    | nil =>
      have : ps' = [] := List.length_eq_zero_iff.1 (by rw [h4, ← h3]; rfl)
      rw [this]; rfl
    | cons p ps =>
      cases ps' with
      | nil => simp only [List.length_cons, List.length_nil] at h3 h4; omega
      | cons p' ps' => exact congrArg Except.ok (h5 x)

theorem mapM_id_some {l : List (Option ℚ)} {v : List ℚ} (h : l.mapM id = some v) : l = v.map some := by
  induction l generalizing v with
  | nil => cases h; rfl
  | cons o l ih =>
    rw [List.mapM_cons] at h
    cases o with
    | none => cases h
    | some w =>
      cases hl : l.mapM id with
      | none => rw [hl] at h; cases h
      | some u =>
        rw [hl] at h
        cases h
        rw [ih hl]; rfl

theorem omean_zero {l : List (Option ℚ)} (h : ∀ o ∈ l, ∀ v : ℚ, o = some v → v = 0) (w : ℚ) (hw : omean l = some w) : w = 0 := by
  unfold omean at hw
  cases hm : l.mapM id with
  | none => rw [hm] at hw; cases hw
  | some u =>
    rw [hm, Option.bind_some] at hw
    have hu : u.sum = 0 := List.sum_eq_zero (fun v hv => h (some v) (by rw [mapM_id_some hm]; exact List.mem_map_of_mem hv) v rfl)
    by_cases hn : u = []
    · rw [if_pos hn] at hw; cases hw
    · rw [if_neg hn, hu, zero_div] at hw
      exact (Option.some.inj hw).symm

theorem stage_zero (cuts : List ℚ → List ℚ) (rows : List Row) (err : List (Option ℚ)) (idx : List ℕ) (f : ℕ) (x : Row)
    (h : ∀ o ∈ err, ∀ v : ℚ, o = some v → v = 0) (w : ℚ) (hw : stage cuts rows err idx f x = some w) : w = 0 := by
  refine omean_zero ?_ w hw
  intro o ho v hv
  obtain ⟨r, hr, rfl⟩ := List.mem_map.1 ho
  obtain ⟨i, _, rfl⟩ := List.mem_map.1 (List.mem_filter.1 hr).1
  simp only [List.getD_eq_getElem?_getD] at hv
  cases he : err[i]? with
  | none => rw [he] at hv; cases hv
  | some o =>
    rw [he] at hv
    exact h o (List.mem_of_getElem? he) v hv

theorem residual_zero (lr : ℚ) (rows : List Row) (err : List (Option ℚ)) (p : Row → Option ℚ) (h : ∀ o ∈ err, ∀ v : ℚ, o = some v → v = 0)
    (hp : ∀ (x : Row) (w : ℚ), p x = some w → w = 0) : ∀ o ∈ residual lr rows err p, ∀ v : ℚ, o = some v → v = 0 := by
  unfold residual
  induction err generalizing rows with
  | nil => intro o ho; simp at ho
  | cons e err ih =>
    cases rows with
    | nil => intro o ho; simp at ho
    | cons x rows =>
      intro o ho v hv
      rw [List.zipWith_cons_cons, List.mem_cons] at ho
      rcases ho with ho | ho
      · rw [hv] at ho
        cases e with
        | none => cases ho
        | some e =>
          cases hs : p x with
          | none => rw [hs] at ho; cases ho
          | some s =>
            rw [hs, h (some e) (List.mem_cons_self ..) e rfl, hp x s hs] at ho
            simp only [osub, Option.map_some, Option.bind_some, Option.some.injEq, mul_zero, sub_zero] at ho
            exact ho
      · exact ih rows (fun o ho => h o (List.mem_cons_of_mem _ ho)) o ho v hv

theorem total_zero (lr : ℚ) (cuts : List ℚ → List ℚ) (nf : ℕ) (rows : List Row) (x : Row) (idxs : List (List ℕ)) :
    ∀ (err : List (Option ℚ)) (ps : List (Row → Option ℚ)), (∀ o ∈ err, ∀ v : ℚ, o = some v → v = 0) → fit lr cuts nf rows idxs err = .ok ps →
      ∀ w : ℚ, total lr x ps = some w → w = 0 := by
  induction idxs with
  | nil =>
    intro err ps _ hf w hw
    cases hf
    exact (Option.some.inj hw).symm
  | cons idx rest ih =>
    intro err ps h hf w hw
    rw [fit] at hf
    cases hb : bestFeature cuts nf rows err idx with
    | error e => rw [hb] at hf; cases hf
    | ok f =>
      rw [hb] at hf
      simp only at hf
      cases hr : fit lr cuts nf rows rest (residual lr rows err (stage cuts rows err idx f)) with
      | error e => rw [hr] at hf; cases hf
      | ok qs =>
        rw [hr] at hf
        cases hf
        have h' : ∀ o ∈ residual lr rows err (stage cuts rows err idx f), ∀ v : ℚ, o = some v → v = 0 := by
          exact residual_zero lr rows err _ h (fun y w hw => stage_zero cuts rows err idx f y h w hw)
        rw [total] at hw
        cases hs : stage cuts rows err idx f x with
        | none => rw [hs] at hw; cases hw
        | some s =>
          rw [hs, Option.bind_some] at hw
          cases ht : total lr x qs with
          | none => rw [ht] at hw; cases hw
          | some t =>
            rw [ht, Option.map_some, Option.some.injEq, stage_zero cuts rows err idx f x h s hs, ih _ qs h' hr t ht] at hw
            linarith

/-- Constant targets `c`: every forecast that is not NaN is `c * (1 - (1 - lr) ^ n)`. -/
theorem C333_constant (lr c : ℚ) (cuts : List ℚ → List ℚ) (nf : ℕ) (rows : List Row) (y : List ℚ) (hy : ∀ v ∈ y, v = c) (idxs : List (List ℕ)) (x : Row) (p : ℚ)
    (h : fitPredict lr cuts nf rows y idxs x = .ok (some p)) : p = c * (1 - (1 - lr) ^ idxs.length) := by
  have e : y = (y.map (fun _ => (0 : ℚ))).map (fun v => 1 * v + c) := by
    rw [List.map_map]
    conv_lhs => rw [← List.map_id y]
    apply List.map_congr_left
    intro v hv
    simp [hy v hv]
  rw [e, C333_affine lr 1 c one_ne_zero] at h
  cases hz : fitPredict lr cuts nf rows (y.map (fun _ => (0 : ℚ))) idxs x with
  | error e => rw [hz] at h; cases h
  | ok o =>
    rw [hz] at h
    cases o with
    | none => cases h
    | some w =>
      have hw : w = 0 := by
        unfold fitPredict at hz
        cases hf : fit lr cuts nf rows idxs ((y.map (fun _ => (0 : ℚ))).map some) with
        | error e => rw [hf] at hz; cases hz
        | ok ps =>
          cases ps with
          | nil => rw [hf] at hz; cases hz
          | cons q qs =>
            rw [hf] at hz
            refine total_zero lr cuts nf rows x idxs _ (q :: qs) ?_ hf w (Except.ok.inj hz)
            intro o ho v hv
            rw [List.map_map] at ho
            obtain ⟨_, _, rfl⟩ := List.mem_map.1 ho
            exact (Option.some.inj hv).symm
      have h' : 1 * w + c * (1 - (1 - lr) ^ idxs.length) = p := Option.some.inj (Except.ok.inj h)
      rw [← h', hw]
      ring

/-- With a learning rate in (0, 1) the forecasts of constant targets are never the constant unless it is 0, and lie between 0 and it. -/
theorem C333_short (lr c : ℚ) (h0 : 0 < lr) (h1 : lr < 1) (hc : 0 < c) (cuts : List ℚ → List ℚ) (nf : ℕ) (rows : List Row) (y : List ℚ) (hy : ∀ v ∈ y, v = c)
    (idxs : List (List ℕ)) (x : Row) (p : ℚ) (h : fitPredict lr cuts nf rows y idxs x = .ok (some p)) : 0 < p ∧ p < c := by
  have e := C333_constant lr c cuts nf rows y hy idxs x p h
  have hn : idxs.length ≠ 0 := by
    intro hl
    rw [List.length_eq_zero_iff.1 hl] at h
    unfold fitPredict at h
    cases h
  have q0 : 0 < (1 - lr) ^ idxs.length := pow_pos (by linarith) _
  have q1 : (1 - lr) ^ idxs.length < 1 := pow_lt_one₀ (by linarith) (by linarith) hn
  rw [e]
  constructor
  · exact mul_pos hc (by linarith)
  · nlinarith

/-- With the default learning rate and iterations, forecasts of constant targets are about 65.1 % of them. -/
theorem C333_default (c : ℚ) (cuts : List ℚ → List ℚ) (nf : ℕ) (rows : List Row) (y : List ℚ) (hy : ∀ v ∈ y, v = c)
    (idxs : List (List ℕ)) (hn : idxs.length = 10) (x : Row) (p : ℚ) (h : fitPredict (1 / 10) cuts nf rows y idxs x = .ok (some p)) :
    p = c * (6513215599 / 10000000000) := by
  rw [C333_constant (1 / 10) c cuts nf rows y hy idxs x p h, hn]
  norm_num

end PyF.Brutal
