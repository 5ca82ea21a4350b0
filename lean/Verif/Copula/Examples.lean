import Verif.Copula.Methods

/-! A frame of two rows with columns of different variance, and draws that meet the hypotheses. -/

namespace PyF.Copula.Ex
open PyF PyF.ScenGen PyF.Recon MeasureTheory ProbabilityTheory Matrix

/-- Draws from one normal number. -/
noncomputable def rvs : ℝ → Nat → Matrix (Fin 2) (Fin 2) ℝ → Nat → Nat → Nat → Nat → Nat → ℝ :=
  fun ω _ cov _ _ _ _ s => if h : s < 2 then Real.sqrt (cov ⟨s, h⟩ ⟨s, h⟩) * ω else 0

theorem normals : Normals (gaussianReal 0 1) rvs where
  meas c cov k n i j s := by
    unfold rvs
    split_ifs
    · fun_prop
    · fun_prop
  law c cov k n i j s h := by
    have hs : 0 ≤ cov s s := h.diag_nonneg
    have : (fun ω => rvs ω c cov k n i j s) = fun ω => Real.sqrt (cov s s) * ω := by
      funext ω
      unfold rvs
      rw [dif_pos s.2]
    rw [this, gaussianReal_map_const_mul, mul_zero]
    congr 1
    ext
    simp [Real.sq_sqrt hs, hs]

/-- Columns `0, 1` and `0, 2`. -/
noncomputable def e : ℕ → Fin 2 → ℝ := fun r i => if r = 0 then 0 else if i = 0 then 1 else 2

theorem varying : Varying 2 e := by
  intro i
  refine ⟨0, by norm_num, 1, by norm_num, ?_⟩
  unfold e
  rw [if_pos rfl, if_neg one_ne_zero]
  split_ifs <;> norm_num

theorem var0 : Recon.variance 2 (fun r => e r 0) = 1 / 4 := by
  unfold Recon.variance e
  norm_num [Finset.sum_range_succ]

theorem var1 : Recon.variance 2 (fun r => e r 1) = 1 := by
  unfold Recon.variance e
  norm_num [Finset.sum_range_succ]

theorem mean_var : meanVar 2 e = 5 / 8 := by
  unfold meanVar
  rw [Fin.sum_univ_two, var0, var1]
  norm_num

noncomputable def levels : List ℝ := [Phi (-1), Phi 0, Phi 1]

theorem situation (cov : Matrix (Fin 2) (Fin 2) ℝ) (h : cov.PosDef) : Situation levels [[[1, 2, 3], [4, 5, 6]]] none (fun h => if h = 5 then some cov else none) 10 [5] 0 0 7 cov 2 1 3 where
  several := by norm_num
  hours_lt := by simp
  seen := by simp
  shaped := by simp [Shaped, levels]
  rows := rfl
  initial := by simp
  levels_lt := by
    have h1 : Phi (-1) < Phi 0 := Phi_strictMono (by norm_num)
    have h2 : Phi 0 < Phi 1 := Phi_strictMono (by norm_num)
    simp only [levels, List.pairwise_cons, List.mem_cons, List.not_mem_nil, or_false, forall_eq_or_imp, forall_eq]
    exact ⟨⟨h1, h1.trans h2⟩, h2, by simp⟩
  levels_two := by simp [levels]
  hour := ⟨5, rfl, by simp⟩
  valid := h.posSemidef
  var_pos := h.diag_pos
  scenario := by norm_num
  quantile := ⟨[[1, 2, 3], [4, 5, 6]], [1, 2, 3], rfl, rfl, by norm_num, rfl⟩
  level := rfl

/-- The plain method: the value exceeds the largest quantile as often as it should, up to one in a million. -/
example : |(gaussianReal 0 1).real (below levels [[[1, 2, 3], [4, 5, 6]]] false none (fun h => if h = 5 then some (Matrix.of (vanilla 2 e)) else none) rvs (fun _ _ _ => 0) (fun _ _ _ _ => 0) 10 [5] 0 (0 : Fin 2) 7 3) -
    Phi 1| ≤ 1 / 1000000 :=
  C294_vanilla _ _ _ _ _ _ rvs normals _ _ _ _ _ _ _ 2 1 3 2 e varying (situation _ (C294_valid 2 e varying).1) _ rfl

/-- The shrunk method: the scenarios of the first step are too wide. -/
example : |(gaussianReal 0 1).real (below levels [[[1, 2, 3], [4, 5, 6]]] false none (fun h => if h = 5 then some (Matrix.of (shrunk 2 e)) else none) rvs (fun _ _ _ => 0) (fun _ _ _ _ => 0) 10 [5] 0 (0 : Fin 2) 7 3) -
    1 / 2| < |Phi 1 - 1 / 2| :=
  (C294_shrunk _ _ _ _ _ _ rvs normals _ _ _ _ _ _ _ 2 1 3 2 e varying (situation _ (C294_valid 2 e varying).2) _ rfl (by
    rw [← Phi_zero]
    exact (Phi_strictMono (by norm_num)).ne')).2.1 (by rw [var0, mean_var]; norm_num)

/-- A matrix with ones on the diagonal. -/
example : levels[2]? = some ((gaussianReal 0 1).real (below levels [[[1, 2, 3], [4, 5, 6]]] false none (fun h => if h = 5 then some 1 else none) rvs (fun _ _ _ => 0) (fun _ _ _ _ => 0) 10 [5] 0 (0 : Fin 2) 7 3)) :=
  C293_calibrated _ _ _ _ _ _ rvs normals _ _ _ _ _ _ _ 1 2 1 3 (situation 1 PosDef.one) (by simp)

end PyF.Copula.Ex
