import Verif.Ols.Props
import Mathlib.LinearAlgebra.Dual.Lemmas
import Mathlib.LinearAlgebra.Finsupp.LinearCombination
import Mathlib.LinearAlgebra.StdBasis
import Mathlib.Algebra.Module.Submodule.Basic

/-! C322, C323: what the least squares forecasts are when features are combinations of one another, and how features change the errors in sample. -/

namespace PyF.Ols
open Spec

variable {d m : ℕ}

/-- The features `x` are a weighted mean of those of the rows, with weights of any sign that sum to one. -/
def Mixture (rows : List (Row d m)) (x : Fin d → ℝ) : Prop :=
  ∃ a : Fin rows.length → ℝ, ∑ i, a i = 1 ∧ ∀ k, ∑ i, a i * rows[i].1 k = x k

/-- Squared errors over rows and targets. -/
noncomputable def sse (rows : List (Row d m)) (c : Coef d m) : ℝ := ∑ j, (rows.map fun r : Row d m => err c j r ^ 2).sum

theorem pred_mixture {rows : List (Row d m)} {x : Fin d → ℝ} (a : Fin rows.length → ℝ) (h1 : ∑ i, a i = 1) (hx : ∀ k, ∑ i, a i * rows[i].1 k = x k)
    (c : Coef d m) (j : Fin m) : pred c x j = ∑ i, a i * pred c rows[i].1 j := by
  unfold pred
  simp only [mul_add, Finset.sum_add_distrib, ← Finset.sum_mul, h1, one_mul]
  congr 1
  simp only [Finset.mul_sum]
  rw [Finset.sum_comm]
  refine Finset.sum_congr rfl fun k _ => ?_
  rw [← hx k, Finset.mul_sum]
  exact Finset.sum_congr rfl fun i _ => by ring

/-- If `x` is no mixture of the rows there is a direction of the model that changes the forecast for `x` but none of the rows. -/
theorem exists_direction {rows : List (Row d m)} {x : Fin d → ℝ} (hne : ¬ Mixture rows x) :
    ∃ (b : ℝ) (w : Fin d → ℝ), (∀ r ∈ rows, b + ∑ k, w k * r.1 k = 0) ∧ b + ∑ k, w k * x k ≠ 0 := by
  classical
  let v : Fin rows.length → ℝ × (Fin d → ℝ) := fun i => (1, rows[i].1)
  have hnot : ((1 : ℝ), x) ∉ Submodule.span ℝ (Set.range v) := by
    intro hmem
    obtain ⟨a, ha⟩ := (Submodule.mem_span_range_iff_exists_fun ℝ).1 hmem
    apply hne
    refine ⟨a, ?_, fun k => ?_⟩
    · have := congrArg Prod.fst ha
      simpa [v, Prod.fst_sum] using this
    · have := congrFun (congrArg Prod.snd ha) k
      simpa [v, Prod.snd_sum, Finset.sum_apply] using this
  obtain ⟨f, hf, hker⟩ := Submodule.exists_le_ker_of_notMem hnot
  have hform : ∀ (s : ℝ) (y : Fin d → ℝ), f (s, y) = s * f (1, 0) + ∑ k, f (0, Pi.single k 1) * y k := by
    intro s y
    have e : (s, y) = s • ((1 : ℝ), (0 : Fin d → ℝ)) + ∑ k, y k • ((0 : ℝ), (Pi.single k 1 : Fin d → ℝ)) := by
      refine Prod.ext ?_ ?_
      · simp [Prod.fst_sum]
      · funext k
        simp [Prod.snd_sum, Finset.sum_apply, Pi.single_apply]
    rw [e, map_add, map_smul, map_sum, smul_eq_mul]
    congr 1
    exact Finset.sum_congr rfl fun k _ => by rw [map_smul, smul_eq_mul, mul_comm]
  refine ⟨f (1, 0), fun k => f (0, Pi.single k 1), fun r hr => ?_, ?_⟩
  · obtain ⟨i, hi, rfl⟩ := List.getElem_of_mem hr
    have hv : v ⟨i, hi⟩ ∈ Submodule.span ℝ (Set.range v) := Submodule.subset_span ⟨⟨i, hi⟩, rfl⟩
    have h2 : f (1, rows[i].1) = 0 := LinearMap.mem_ker.1 (hker hv)
    rwa [hform, one_mul] at h2
  · have h2 : f (1, x) ≠ 0 := hf
    rwa [hform, one_mul] at h2

theorem fitted_unique {rows : List (Row d m)} {c c' : Coef d m} (h : IsBest 0 rows c) (h' : IsBest 0 rows c') : ∀ r ∈ rows, ∀ j, pred c' r.1 j = pred c r.1 j :=
  (normal_unique le_rfl (normal_of_best h) (normal_of_best h')).1

/-- C322: which forecasts of kind `linear` are determined by the training rows. Whatever correct least squares routine is used, and whether or not features are
combinations of one another, the forecast for `x` is the same exactly if `x` is a mixture of the training rows. -/
theorem C322_determined (S : Solver d m) (vr : Option ℝ) (rows : List (Row d m)) (hS : IsBest 0 (trainRows vr rows) (S 0 (trainRows vr rows)))
    (f : Coef d m) (h : fit S "linear" vr rows = .ok f) (x : Fin d → ℝ) (j : Fin m) :
    (∀ (S' : Solver d m) (f' : Coef d m), IsBest 0 (trainRows vr rows) (S' 0 (trainRows vr rows)) → fit S' "linear" vr rows = .ok f' → pred f' x j = pred f x j)
      ↔ Mixture (trainRows vr rows) x := by
  rw [fit_linear] at h
  obtain rfl := Except.ok.inj h
  constructor
  · intro H
    by_contra hne
    obtain ⟨b, w, h0, hx⟩ := exists_direction hne
    let c := S 0 (trainRows vr rows)
    let v : Coef d m := ⟨fun _ => w, fun _ => b⟩
    have hv : ∀ r ∈ trainRows vr rows, ∀ j, pred v r.1 j = 0 := fun r hr j => h0 r hr
    have hb : IsBest 0 (trainRows vr rows) (move c v 1) := by
      intro c'
      refine le_trans (le_of_eq ?_) (hS c')
      unfold loss
      rw [zero_mul, zero_mul]
      congr 1
      congr 1
      refine List.map_congr_left fun r hr => Finset.sum_congr rfl fun j _ => ?_
      rw [pred_move, hv r hr, mul_zero, add_zero]
    have := H (fun _ _ => move c v 1) (move c v 1) hb (fit_linear _ _ _)
    rw [pred_move] at this
    exact hx (by show pred v x j = 0; linarith)
  · rintro ⟨a, h1, hx⟩ S' f' hS' h'
    rw [fit_linear] at h'
    obtain rfl := Except.ok.inj h'
    rw [pred_mixture a h1 hx, pred_mixture a h1 hx]
    refine Finset.sum_congr rfl fun i _ => ?_
    exact congrArg (a i * ·) (fitted_unique hS hS' _ (List.getElem_mem i.2) j)

/-- The features `z` completed by others that are combinations of them: feature `k` is `e k + Σ A k l z l`. -/
def complete {d' : ℕ} (A : Fin d → Fin d' → ℝ) (e : Fin d → ℝ) (z : Fin d' → ℝ) : Fin d → ℝ := fun k => e k + ∑ l, A k l * z l

/-- The model on `z` that forecasts as `c` on the completed features. -/
noncomputable def pull {d' : ℕ} (A : Fin d → Fin d' → ℝ) (e : Fin d → ℝ) (c : Coef d m) : Coef d' m :=
  ⟨fun j l => ∑ k, c.w j k * A k l, fun j => c.b j + ∑ k, c.w j k * e k⟩

theorem pred_pull {d' : ℕ} (A : Fin d → Fin d' → ℝ) (e : Fin d → ℝ) (c : Coef d m) (z : Fin d' → ℝ) (j : Fin m) :
    pred (pull A e c) z j = pred c (complete A e z) j := by
  unfold pred pull complete
  simp only [mul_add, Finset.sum_add_distrib, Finset.mul_sum, Finset.sum_mul]
  rw [add_assoc, Finset.sum_comm]
  congr 2
  exact Finset.sum_congr rfl fun k _ => Finset.sum_congr rfl fun l _ => by ring

/-- The model on the completed features that only uses the features `sel`. -/
noncomputable def push {d' : ℕ} (sel : Fin d' → Fin d) (c : Coef d' m) : Coef d m :=
  ⟨fun j k => ∑ l, if sel l = k then c.w j l else 0, c.b⟩

theorem pred_push {d' : ℕ} (sel : Fin d' → Fin d) (c : Coef d' m) (x : Fin d → ℝ) (j : Fin m) : pred (push sel c) x j = pred c (fun l => x (sel l)) j := by
  unfold pred push
  congr 1
  simp only [Finset.sum_mul]
  rw [Finset.sum_comm]
  refine Finset.sum_congr rfl fun l _ => ?_
  simp [ite_mul]

/-- C322 (redundant features): further features that are combinations of the given ones (copies, sums, constants) on the training rows and on the row to forecast leave
the forecast of kind `linear` unchanged, whatever correct routine is used. -/
theorem C322_redundant {d' : ℕ} (S : Solver d m) (S' : Solver d' m) (vr : Option ℝ) (rows : List (Row d' m)) (A : Fin d → Fin d' → ℝ) (e : Fin d → ℝ) (sel : Fin d' → Fin d)
    (hsel : ∀ z l, complete A e z (sel l) = z l) (hI : Indep (trainRows vr rows))
    (hS : IsBest 0 (trainRows vr (rows.map fun r : Row d' m => (complete A e r.1, r.2))) (S 0 (trainRows vr (rows.map fun r : Row d' m => (complete A e r.1, r.2)))))
    (hS' : IsBest 0 (trainRows vr rows) (S' 0 (trainRows vr rows))) (f : Coef d m) (f' : Coef d' m)
    (h : fit S "linear" vr (rows.map fun r : Row d' m => (complete A e r.1, r.2)) = .ok f) (h' : fit S' "linear" vr rows = .ok f') (z : Fin d' → ℝ) (j : Fin m) :
    pred f (complete A e z) j = pred f' z j := by
  rw [fit_linear] at h h'
  obtain rfl := Except.ok.inj h
  obtain rfl := Except.ok.inj h'
  rw [trainRows_map] at hS ⊢
  set R := trainRows vr rows
  set c := S 0 (R.map fun r : Row d' m => (complete A e r.1, r.2))
  have hl : ∀ c' : Coef d m, loss 0 R (pull A e c') = loss 0 (R.map fun r : Row d' m => (complete A e r.1, r.2)) c' := by
    intro c'
    unfold loss
    rw [zero_mul, zero_mul, List.map_map]
    congr 2
    refine List.map_congr_left fun r _ => Finset.sum_congr rfl fun j _ => ?_
    rw [pred_pull]
  have hb : IsBest 0 R (pull A e c) := by
    intro c'
    rw [hl c]
    refine (hS (push sel c')).trans (le_of_eq ?_)
    unfold loss
    rw [zero_mul, zero_mul, List.map_map]
    congr 2
    refine List.map_congr_left fun r _ => Finset.sum_congr rfl fun j _ => ?_
    simp only
    rw [pred_push]
    simp only [hsel]
  rw [← pred_pull, normal_unique_indep hI (normal_of_best hb) (normal_of_best hS')]

/-! ### Errors in sample -/

theorem loss_zero (rows : List (Row d m)) (c : Coef d m) : loss 0 rows c = sse rows c := by
  unfold loss sse
  rw [zero_mul, add_zero, ← sum_comm_rows]
  rfl

/-- C323 (more features): the squared errors on the training rows do not grow when features are added. -/
theorem C323_more_features {d' : ℕ} (S : Solver d m) (S' : Solver d' m) (vr : Option ℝ) (rows : List (Row d m)) (sel : Fin d' → Fin d)
    (hS : IsBest 0 (trainRows vr rows) (S 0 (trainRows vr rows))) (f : Coef d m) (f' : Coef d' m) (h : fit S "linear" vr rows = .ok f)
    (h' : fit S' "linear" vr (rows.map fun r : Row d m => (fun l => r.1 (sel l), r.2)) = .ok f') :
    sse (trainRows vr rows) f ≤ sse ((trainRows vr rows).map fun r : Row d m => (fun l => r.1 (sel l), r.2)) f' := by
  rw [fit_linear] at h h'
  obtain rfl := Except.ok.inj h
  obtain rfl := Except.ok.inj h'
  rw [trainRows_map, ← loss_zero, ← loss_zero]
  refine (hS (push sel (S' 0 ((trainRows vr rows).map fun r : Row d m => (fun l => r.1 (sel l), r.2))))).trans (le_of_eq ?_)
  unfold loss
  rw [zero_mul, zero_mul, List.map_map]
  congr 2
  refine List.map_congr_left fun r _ => Finset.sum_congr rfl fun j _ => ?_
  rw [pred_push]

theorem best_target {rows : List (Row d m)} {c : Coef d m} (hS : IsBest 0 rows c) (j : Fin m) (w : Fin d → ℝ) (b : ℝ) :
    (rows.map fun r : Row d m => err c j r ^ 2).sum ≤ (rows.map fun r : Row d m => (r.2 j - (b + ∑ k, w k * r.1 k)) ^ 2).sum := by
  classical
  let c' : Coef d m := ⟨fun i => if i = j then w else c.w i, fun i => if i = j then b else c.b i⟩
  have := hS c'
  rw [loss_zero, loss_zero] at this
  unfold sse at this
  rw [← Finset.add_sum_erase _ _ (Finset.mem_univ j), ← Finset.add_sum_erase Finset.univ (fun i => (rows.map fun r : Row d m => err c' i r ^ 2).sum) (Finset.mem_univ j)] at this
  have e1 : ∑ i ∈ Finset.univ.erase j, (rows.map fun r : Row d m => err c' i r ^ 2).sum = ∑ i ∈ Finset.univ.erase j, (rows.map fun r : Row d m => err c i r ^ 2).sum := by
    refine Finset.sum_congr rfl fun i hi => ?_
    have hij : i ≠ j := Finset.ne_of_mem_erase hi
    simp only [err, pred, c', if_neg hij]
  rw [e1] at this
  have e2 : (rows.map fun r : Row d m => err c' j r ^ 2) = rows.map fun r : Row d m => (r.2 j - (b + ∑ k, w k * r.1 k)) ^ 2 :=
    List.map_congr_left fun r _ => by simp [err, pred, c']
  rw [e2] at this
  linarith

/-- C323 (each target): on the training rows no other linear forecast of a target does better, in particular no single lag with any slope and offset (persistence) and
no constant (the mean). -/
theorem C323_no_worse (S : Solver d m) (vr : Option ℝ) (rows : List (Row d m)) (hS : IsBest 0 (trainRows vr rows) (S 0 (trainRows vr rows))) (f : Coef d m)
    (h : fit S "linear" vr rows = .ok f) (j : Fin m) :
    (∀ (w : Fin d → ℝ) (b : ℝ), ((trainRows vr rows).map fun r : Row d m => (r.2 j - pred f r.1 j) ^ 2).sum
        ≤ ((trainRows vr rows).map fun r : Row d m => (r.2 j - (b + ∑ k, w k * r.1 k)) ^ 2).sum) ∧
    (∀ k : Fin d, ((trainRows vr rows).map fun r : Row d m => (r.2 j - pred f r.1 j) ^ 2).sum ≤ ((trainRows vr rows).map fun r : Row d m => (r.2 j - r.1 k) ^ 2).sum) ∧
    ∀ b : ℝ, ((trainRows vr rows).map fun r : Row d m => (r.2 j - pred f r.1 j) ^ 2).sum ≤ ((trainRows vr rows).map fun r : Row d m => (r.2 j - b) ^ 2).sum := by
  classical
  rw [fit_linear] at h
  obtain rfl := Except.ok.inj h
  refine ⟨fun w b => best_target hS j w b, fun k => ?_, fun b => ?_⟩
  · refine (best_target hS j (fun k' => if k' = k then 1 else 0) 0).trans (le_of_eq ?_)
    congr 1
    exact List.map_congr_left fun r _ => by simp
  · refine (best_target hS j (fun _ => 0) b).trans (le_of_eq ?_)
    congr 1
    exact List.map_congr_left fun r _ => by simp

end PyF.Ols
