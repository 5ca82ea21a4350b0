import Verif.FkUnits.Props
import Mathlib.Tactic.NormNum

/-! Examples for C260 and C261. -/

namespace PyF.FkUnits

open PyF.Fast

/-- Windows of two samples, one step ahead, a constant basis. -/
noncomputable def c0 : Fcfg ℝ := { m := 2, nsa := 1, period := 1, alpha := 1 / 2, omega := 1 / 2, d := 0, B := fun _ _ => 1, sqrtM := 1 }

/-- Inverse of a one by one matrix. -/
noncomputable def inv1 : Mat 0 → Mat 0 := fun S _ _ => 1 / S 0 0

/-- The same for `c0`. -/
noncomputable def pinv0 : Mat c0.d → Mat c0.d := inv1

theorem kalman_half : (kalman inv1 (0 : Vec 0) ((1000 : ℝ) • (1 : Mat 0)) ((0 : ℝ) • (1 : Mat 0)) (fun _ => 3) ((1000 : ℝ) • (1 : Mat 0))).1 = fun _ => 3 / 2 := by
  funext a
  fin_cases a
  simp [kalman, inv1, Matrix.mulVec, dotProduct]
  norm_num

/-- A first sample of 3: the filter moves half way, and half of the error is added back. -/
theorem c0_first : (fit c0 pinv0 (fresh c0 0 1000) [3]).map Prod.snd = .ok [some [9 / 4]] := by
  have hw : recentHistory ([3] : List ℝ) (fresh c0 0 1000).w (0 + 1 - c0.m) 0 = .ok [0, 3] := by
    simp [recentHistory, slice, rollLeft, fresh, c0]
  have hp : project c0 0 [0, 3] = fun _ => 3 := by
    funext a; simp [project, c0, List.range_succ]
  have hk : (kalman pinv0 (0 : Vec c0.d) ((1000 : ℝ) • (1 : Mat c0.d)) ((0 : ℝ) • (1 : Mat c0.d)) (fun _ => 3) ((1000 : ℝ) • (1 : Mat c0.d))).1 = fun _ => 3 / 2 := kalman_half
  have hq : project' c0 0 (fun _ => (3 / 2 : ℝ)) = [3 / 2] := by
    have : ∀ r, dot (K := ℝ) (d := c0.d) (c0.B r) (fun _ => 3 / 2) = 3 / 2 := by
      intro r
      change ∑ _a : Fin 1, (1 : ℝ) * (3 / 2) = 3 / 2
      simp
    simp only [project', this]
    simp [pySlice, c0, Fcfg.rows, List.range_succ]
  have hs : (step c0 pinv0 (fresh c0 0 1000).w [3] { fresh c0 0 1000 with hist := (fresh c0 0 1000).hist ++ List.replicate 1 0 } 0).map Prod.snd = .ok (some [9 / 4]) := by
    unfold step
    rw [hw]
    simp only [fresh, hp, hk]
    rw [hq]
    simp [Except.map, addEps, c0]
    norm_num
  unfold fit
  rw [if_neg (by simp)]
  simp only [List.length_singleton, List.range_one, loop]
  revert hs
  cases step c0 pinv0 (fresh c0 0 1000).w [3] { fresh c0 0 1000 with hist := (fresh c0 0 1000).hist ++ List.replicate 1 0 } 0 with
  | error e => intro hs; cases hs
  | ok p => intro hs; have := Except.ok.inj hs; simp only [Except.map]; rw [this]

/-- C260: in units ten times smaller the forecast is ten times larger. -/
example : session c0 pinv0 (fresh c0 0 1000) [.fit [30]] = [.ok [some [45 / 2]]] := by
  have h := C260_units c0 pinv0 0 1000 10 (by norm_num) [.fit [3]]
  have e : session c0 pinv0 (fresh c0 0 1000) [.fit [3]] = [.ok [some [9 / 4]]] := by
    have := c0_first
    simp only [session]
    cases hf : fit c0 pinv0 (fresh c0 0 1000) [3] with
    | error e => rw [hf] at this; cases this
    | ok p => rw [hf] at this; have := Except.ok.inj this; simp only; rw [this]
  rw [e] at h
  norm_num [Call.inUnits, rowsInUnits, Except.map] at h
  exact h

/-- C261: two zeros, then data: no forecast from the fourth sample on. -/
example : ∃ s rs, fit c0 pinv0 (fresh c0 (1 / 10) (1 / 10)) [0, 0, 5, 7, 6] = .ok (s, rs) ∧ s.filter = none ∧ rs.length = 5 ∧
    rs[3]? = some none ∧ rs[4]? = some none ∧ rs[2]? ≠ some none := by
  obtain ⟨s, rs, h1, h2, h3, h4⟩ := C261_zeros c0 ⟨by simp [c0], by simp [c0], by simp [c0]⟩ pinv0 (1 / 10) (1 / 10) [0, 0, 5, 7, 6]
    (by intro j hj; have : j = 0 ∨ j = 1 := by simp only [c0] at hj; omega
        rcases this with rfl | rfl <;> rfl) (by simp [c0])
  refine ⟨s, rs, h1, h2, h3, (h4 3 (by simp)).2 (by simp [c0]), (h4 4 (by simp)).2 (by simp [c0]), ?_⟩
  intro h
  have := (h4 2 (by simp)).1 h
  simp [c0] at this

/-- C261: a coefficient seen as 1 and 2 before sample 2 keeps the filter; seen as 1 twice it is lost. -/
example (F : Filter 0) : refresh 2 2 [fun _ => 1, fun _ => 2, fun _ => 9] F ≠ none ∧ refresh 2 2 [fun _ => 1, fun _ => 1, fun _ => 9] F = none := by
  constructor
  · intro h
    obtain ⟨_, _, h | ⟨a, h⟩⟩ := (C261_refresh 2 2 _ F).1 h
    · simp at h
    · have := h 0 1 (fun _ => 1) (fun _ => 2) (by omega) (by omega) rfl rfl
      norm_num at this
  · refine (C261_refresh 2 2 _ F).2 ⟨dvd_refl _, le_refl _, Or.inr ⟨0, ?_⟩⟩
    intro j j' h h' hj hj' e e'
    have : j = 0 ∨ j = 1 := by omega
    have : j' = 0 ∨ j' = 1 := by omega
    rcases ‹j = 0 ∨ j = 1› with rfl | rfl <;> rcases ‹j' = 0 ∨ j' = 1› with rfl | rfl <;> simp at e e' <;> simp [← e, ← e']

/-- C261: a dead filter in a later call. -/
example (rs : List (Option (List ℝ))) (h : Except.ok rs ∈ session c0 pinv0 { fresh c0 1 1 with filter := none } [.predict [4, 5], .fit [1]]) :
    ∀ r ∈ rs, r = none := C261_for_good c0 pinv0 _ _ rfl rs h

/-- C261: the second step of a window of one is reached. -/
example : ∃ s' r, step { c0 with m := 1 } pinv0 [0] [3, 8] (fresh { c0 with m := 1 } 1 1) 1 = .ok (s', r) ∧ s'.filter = none := by
  obtain ⟨s', r, h⟩ := step_ok { c0 with m := 1 } ⟨by simp, by simp [c0], by simp [c0]⟩ pinv0 [0] [3, 8] (by simp) (fresh { c0 with m := 1 } 1 1) 1 (by simp)
  exact ⟨s', r, h, C261_window_of_one { c0 with m := 1 } pinv0 rfl _ _ _ _ _ h⟩

end PyF.FkUnits
