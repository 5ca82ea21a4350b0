import Verif.Ols.Targets
import Mathlib.LinearAlgebra.FiniteDimensional.Lemmas
import Mathlib.Tactic.FinCases

/-! The hypotheses of the theorems on the linear forecaster are met. -/

namespace PyF.Ols
open Spec

variable {d m : ℕ}

/-- Left side of the normal equations of one target as a linear map. -/
noncomputable def lhs (α : ℝ) (xs : List (Fin d → ℝ)) : ((Fin d → ℝ) × ℝ) →ₗ[ℝ] ((Fin d → ℝ) × ℝ) where
  toFun p := (fun k => (xs.map fun x => (p.2 + ∑ k, p.1 k * x k) * x k).sum + α * p.1 k, (xs.map fun x => p.2 + ∑ k, p.1 k * x k).sum)
  map_add' p q := by
    have h : ∀ x : Fin d → ℝ, ∑ k, (p.1 k + q.1 k) * x k = ∑ k, p.1 k * x k + ∑ k, q.1 k * x k := fun x => by
      rw [← Finset.sum_add_distrib]; exact Finset.sum_congr rfl fun k _ => by ring
    refine Prod.ext (funext fun k => ?_) ?_
    · simp only [Prod.fst_add, Prod.snd_add, Pi.add_apply, h]
      induction xs with
      | nil => simp; ring
      | cons x xs ih => simp only [List.map_cons, List.sum_cons]; linarith
    · simp only [Prod.fst_add, Prod.snd_add, Pi.add_apply, h]
      induction xs with
      | nil => simp
      | cons x xs ih => simp only [List.map_cons, List.sum_cons]; linarith
  map_smul' s p := by
    have h : ∀ x : Fin d → ℝ, ∑ k, (s * p.1 k) * x k = s * ∑ k, p.1 k * x k := fun x => by
      rw [Finset.mul_sum]; exact Finset.sum_congr rfl fun k _ => by ring
    refine Prod.ext (funext fun k => ?_) ?_
    · simp only [Prod.smul_fst, Prod.smul_snd, Pi.smul_apply, smul_eq_mul, h, RingHom.id_apply]
      induction xs with
      | nil => simp; ring
      | cons x xs ih => simp only [List.map_cons, List.sum_cons]; linear_combination ih
    · simp only [Prod.smul_fst, Prod.smul_snd, Pi.smul_apply, smul_eq_mul, h, RingHom.id_apply]
      induction xs with
      | nil => simp
      | cons x xs ih => simp only [List.map_cons, List.sum_cons]; linear_combination ih

theorem lhs_injective {α : ℝ} (hα : 0 < α) {xs : List (Fin d → ℝ)} (hne : xs ≠ []) : Function.Injective (lhs α xs) := by
  rw [← LinearMap.ker_eq_bot, LinearMap.ker_eq_bot']
  intro p hp
  have hp1 : ∀ k, (xs.map fun x => (p.2 + ∑ k, p.1 k * x k) * x k).sum + α * p.1 k = 0 := fun k => congrFun (congrArg Prod.fst hp) k
  have hp2 : (xs.map fun x => p.2 + ∑ k, p.1 k * x k).sum = 0 := congrArg Prod.snd hp
  set rows : List (Row d 1) := xs.map fun x => (x, fun _ => 0) with hrows
  have h0 : Normal α rows (⟨fun _ _ => 0, fun _ => 0⟩ : Coef d 1) := by
    intro j
    have he : ∀ x : Fin d → ℝ, err (⟨fun _ _ => 0, fun _ => 0⟩ : Coef d 1) j (x, fun _ => 0) = 0 := fun x => by simp [err, pred]
    refine ⟨?_, fun k => ?_⟩
    · rw [hrows, List.map_map]
      exact List.sum_eq_zero fun y hy => by
        obtain ⟨x, -, rfl⟩ := List.mem_map.1 hy
        exact he x
    · rw [hrows, List.map_map, mul_zero]
      exact List.sum_eq_zero fun y hy => by
        obtain ⟨x, -, rfl⟩ := List.mem_map.1 hy
        simp [he x]
  have h1 : Normal α rows (⟨fun _ => p.1, fun _ => p.2⟩ : Coef d 1) := by
    intro j
    have he : ∀ x : Fin d → ℝ, err (⟨fun _ => p.1, fun _ => p.2⟩ : Coef d 1) j (x, fun _ => 0) = -(p.2 + ∑ k, p.1 k * x k) := fun x => by simp [err, pred]
    refine ⟨?_, fun k => ?_⟩
    · have : (rows.map (err (⟨fun _ => p.1, fun _ => p.2⟩ : Coef d 1) j)).sum = -(xs.map fun x => p.2 + ∑ k, p.1 k * x k).sum := by
        rw [hrows, List.map_map]
        clear hp hp1 hp2 hne hrows h0
        induction xs with
        | nil => simp
        | cons x xs ih => rw [List.map_cons, List.sum_cons, List.map_cons, List.sum_cons, ih, Function.comp_apply, he]; ring
      rw [this, hp2, neg_zero]
    · have : (rows.map fun r : Row d 1 => err (⟨fun _ => p.1, fun _ => p.2⟩ : Coef d 1) j r * r.1 k).sum
          = -(xs.map fun x => (p.2 + ∑ k, p.1 k * x k) * x k).sum := by
        rw [hrows, List.map_map]
        clear hp hp1 hp2 hne hrows h0
        induction xs with
        | nil => simp
        | cons x xs ih => rw [List.map_cons, List.sum_cons, List.map_cons, List.sum_cons, ih, Function.comp_apply, he]; ring
      rw [this]
      have := hp1 k
      show _ = α * p.1 k
      linarith
  have h2 := normal_unique_pos hα (by simpa [hrows] using hne) h0 h1
  have h3 : p.1 = fun _ => 0 := congrFun (congrArg Coef.w h2) 0
  have h4 : p.2 = 0 := congrFun (congrArg Coef.b h2) 0
  exact Prod.ext h3 h4

/-- A penalised model exists for any rows. -/
theorem exists_normal {α : ℝ} (hα : 0 < α) {rows : List (Row d m)} (hne : rows ≠ []) : ∃ c : Coef d m, Normal α rows c := by
  have hs : Function.Surjective (lhs α (rows.map Prod.fst)) :=
    LinearMap.injective_iff_surjective.1 (lhs_injective hα (by simpa using hne))
  choose p hp using fun j : Fin m => hs (fun k => (rows.map fun r : Row d m => r.2 j * r.1 k).sum, (rows.map fun r : Row d m => r.2 j).sum)
  refine ⟨⟨fun j => (p j).1, fun j => (p j).2⟩, fun j => ?_⟩
  have e1 : ∀ k, ((rows.map Prod.fst).map fun x => ((p j).2 + ∑ k, (p j).1 k * x k) * x k).sum + α * (p j).1 k
      = (rows.map fun r : Row d m => r.2 j * r.1 k).sum := fun k => congrFun (congrArg Prod.fst (hp j)) k
  have e2 : ((rows.map Prod.fst).map fun x => (p j).2 + ∑ k, (p j).1 k * x k).sum = (rows.map fun r : Row d m => r.2 j).sum := congrArg Prod.snd (hp j)
  rw [List.map_map] at e2
  refine ⟨?_, fun k => ?_⟩
  · have : ∀ rs : List (Row d m), (rs.map (err (⟨fun j => (p j).1, fun j => (p j).2⟩ : Coef d m) j)).sum
        = (rs.map fun r : Row d m => r.2 j).sum - (rs.map ((fun x => (p j).2 + ∑ k, (p j).1 k * x k) ∘ Prod.fst)).sum := by
      intro rs
      induction rs with
      | nil => simp
      | cons r rs ih => simp only [List.map_cons, List.sum_cons, ih]; simp only [err, pred, Function.comp_apply]; ring
    rw [this, e2, sub_self]
  · have e3 := e1 k
    rw [List.map_map] at e3
    have : ∀ rs : List (Row d m), (rs.map fun r : Row d m => err (⟨fun j => (p j).1, fun j => (p j).2⟩ : Coef d m) j r * r.1 k).sum
        = (rs.map fun r : Row d m => r.2 j * r.1 k).sum - (rs.map ((fun x => ((p j).2 + ∑ k, (p j).1 k * x k) * x k) ∘ Prod.fst)).sum := by
      intro rs
      induction rs with
      | nil => simp
      | cons r rs ih => simp only [List.map_cons, List.sum_cons, ih]; simp only [err, pred, Function.comp_apply]; ring
    rw [this]
    show _ = α * (p j).1 k
    linarith

/-- There is a solver as assumed for kind `ridge`. -/
theorem exists_solver (d m : ℕ) : ∃ S : Solver d m, ∀ α ∈ grid, ∀ rs : List (Row d m), rs ≠ [] → IsBest α rs (S α rs) := by
  classical
  refine ⟨fun α rs => if h : ∃ c : Coef d m, IsBest α rs c then h.choose else ⟨fun _ _ => 0, fun _ => 0⟩, fun α hα rs hne => ?_⟩
  obtain ⟨c, hc⟩ := exists_normal (m := m) (grid_pos hα) hne
  have h : ∃ c : Coef d m, IsBest α rs c := ⟨c, best_of_normal (grid_pos hα).le hc⟩
  simp only [dif_pos h]
  exact h.choose_spec

/-- Three hours of one feature and one target. -/
def rows3 : List (Row 1 1) := [(![1], ![2]), (![2], ![4]), (![3], ![7])]

/-- Their regression line. -/
noncomputable def line3 : Coef 1 1 := ⟨![![5 / 2]], ![-2 / 3]⟩

theorem best3 : IsBest 0 rows3 line3 := by
  apply best_of_normal le_rfl
  intro j
  fin_cases j
  refine ⟨?_, fun k => ?_⟩
  · simp [rows3, line3, err, pred]; norm_num
  · fin_cases k
    simp [rows3, line3, err, pred]; norm_num

theorem indep3 : Indep rows3 := by
  intro w b h
  have h1 := h (![1], ![2]) (by simp [rows3])
  have h2 := h (![2], ![4]) (by simp [rows3])
  simp at h1 h2
  have hw : w 0 = 0 := by linarith
  refine ⟨by linarith, fun k => ?_⟩
  fin_cases k
  exact hw

/-- C264: the errors `1/6, -1/3, 1/6` of the line. -/
example : (rows3.map (err line3 0)).sum = 0 ∧ err line3 0 (![1], ![2]) ≠ 0 :=
  ⟨C264_all_rows (fun _ _ => line3) "linear" rows3 line3 (fun α h => by
    have : α = 0 := (Except.ok.inj h).symm
    rw [this]; exact best3) rfl 0, by simp [line3, err, pred]; norm_num⟩

/-- C264: half of three rows is one row. -/
example : trainRows (some (1 / 2)) rows3 = rows3.take 2 := by
  have : ⌊(rows3.length : ℝ) * (1 / 2)⌋ = 1 := by
    rw [Int.floor_eq_iff]
    norm_num [rows3]
  simp only [trainRows, this]
  rfl

/-- C265: in kilowatts and watts. -/
example (S' : Solver 1 1) (hS' : IsBest 0 (rows3.map (units ![1000] ![0] ![1000] ![0])) (S' 0 (rows3.map (units ![1000] ![0] ![1000] ![0])))) (x : Fin 1 → ℝ) :
    pred (S' 0 (rows3.map (units ![1000] ![0] ![1000] ![0]))) (fun k => ![1000] k * x k + ![0] k) 0 = ![1000] 0 * pred line3 x 0 + ![0] 0 :=
  C265_units (fun _ _ => line3) S' none rows3 ![1000] ![0] ![1000] ![0] (fun k => by fin_cases k; simp) indep3 best3 hS' _ _ rfl rfl x 0

/-- C266: with any correct solver the forecasts from kilowatts and from watts differ. -/
example (S : Solver 1 1) (hS : ∀ α ∈ grid, ∀ rs : List (Row 1 1), rs ≠ [] → IsBest α rs (S α rs)) (f f' : Coef 1 1) (h : fit S "ridge" none rows3 = .ok f)
    (h' : fit S "ridge" none (rows3.map (rescale ((10 : ℝ) ^ (3 : ℤ)))) = .ok f') :
    ¬ ∀ x : Fin 1 → ℝ, pred f' (fun k => (10 : ℝ) ^ (3 : ℤ) * x k) 0 = (10 : ℝ) ^ (3 : ℤ) * pred f x 0 := by
  rw [C266_ridge_units S S none rows3 3 (by decide) (by simp [trainRows, rows3]) (fun α hα => hS α hα _ (by simp [trainRows, rows3]))
    (fun α hα => hS α hα _ (by simp [trainRows, rows3])) f f' h h' 0]
  intro hU
  have := hU 0
  simp [trainRows, rows3] at this
  norm_num at this

/-- C267: a solver as assumed exists and three rows are enough. -/
example : ∃ S : Solver 1 1, (∀ α ∈ grid, ∀ rs : List (Row 1 1), rs ≠ [] → IsBest α rs (S α rs)) ∧ 2 ≤ (trainRows none rows3).length := by
  obtain ⟨S, hS⟩ := exists_solver 1 1
  exact ⟨S, hS, by simp [trainRows, rows3]⟩

/-- C268: two targets, of which the second is dropped. -/
example (S : Solver 1 2) (S' : Solver 1 1) (hS : ∀ rs : List (Row 1 2), IsBest 0 rs (S 0 rs)) (hS' : ∀ rs : List (Row 1 1), IsBest 0 rs (S' 0 rs))
    (f : Coef 1 2) (f' : Coef 1 1) (h : fit S "linear" none [(![1], ![2, 0]), (![2], ![4, 1]), (![3], ![7, 0])] = .ok f)
    (h' : fit S' "linear" none ([(![1], ![2, 0]), (![2], ![4, 1]), (![3], ![7, 0])].map (onlyTargets ![0])) = .ok f') (x : Fin 1 → ℝ) :
    pred f' x 0 = pred f x 0 :=
  C268_linear S S' none _ ![0] (by
    intro w b h
    have h1 := h (![1], ![2, 0]) (by simp [trainRows])
    have h2 := h (![2], ![4, 1]) (by simp [trainRows])
    simp at h1 h2
    refine ⟨by linarith, fun k => ?_⟩
    fin_cases k
    show w 0 = 0
    linarith) (hS _) (hS' _) f f' h h' x 0

end PyF.Ols
