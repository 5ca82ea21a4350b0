import Verif.Copula.Model
import Verif.ScenGen.Props
import Verif.ReconCov.Lemmas

/-! The normal distribution function and the interpolation of quantiles. -/

namespace PyF.Copula
open PyF MeasureTheory ProbabilityTheory

theorem Phi_eq (z : ℝ) : Phi z = (gaussianReal 0 1).real (Set.Iic z) := cdf_eq_real _ _

theorem Phi_strictMono : StrictMono Phi := by
  intro a b hab
  rw [Phi_eq, Phi_eq]
  have hpos : 0 < (gaussianReal 0 1).real (Set.Ioc a b) := by
    rw [measureReal_def, ENNReal.toReal_pos_iff]
    refine ⟨?_, measure_lt_top _ _⟩
    rw [pos_iff_ne_zero]
    intro h
    have := gaussianReal_absolutelyContinuous' 0 one_ne_zero h
    rw [Real.volume_Ioc] at this
    simp at this
    linarith
  have : (gaussianReal 0 1).real (Set.Iic b) = (gaussianReal 0 1).real (Set.Iic a) + (gaussianReal 0 1).real (Set.Ioc a b) := by
    rw [← measureReal_union (Set.Iic_disjoint_Ioc le_rfl) measurableSet_Ioc, Set.Iic_union_Ioc_eq_Iic hab.le]
  linarith

theorem Phi_zero : Phi 0 = 1 / 2 := by
  have hneg : (gaussianReal 0 1).real (Set.Ici 0) = (gaussianReal 0 1).real (Set.Iic 0) := by
    have h := gaussianReal_map_neg (μ := 0) (v := 1)
    rw [neg_zero] at h
    conv_lhs => rw [← h]
    rw [map_measureReal_apply (by fun_prop) measurableSet_Ici]
    congr 1
    ext x
    simp
  haveI := noAtoms_gaussianReal (μ := 0) (v := 1) one_ne_zero
  have h0 : (gaussianReal 0 1).real {(0 : ℝ)} = 0 := by
    rw [measureReal_def, measure_singleton]
    rfl
  have h1 : (gaussianReal 0 1).real (Set.Iic 0) + (gaussianReal 0 1).real (Set.Ioi 0) = 1 := by
    rw [← measureReal_union (Set.Iic_disjoint_Ioi (le_refl (0 : ℝ))) measurableSet_Ioi, Set.Iic_union_Ioi]
    exact probReal_univ
  have h2 : (gaussianReal 0 1).real (Set.Ici 0) = (gaussianReal 0 1).real {(0 : ℝ)} + (gaussianReal 0 1).real (Set.Ioi 0) := by
    rw [← measureReal_union (by simp) measurableSet_Ioi]
    congr 1
    ext x
    simp [le_iff_eq_or_lt, eq_comm]
  rw [Phi_eq]
  linarith

/-- Normal numbers of another variance. -/
theorem gaussian_Iic (v : ℝ) (hv : 0 < v) (z : ℝ) : (gaussianReal 0 v.toNNReal).real (Set.Iic z) = Phi (z / Real.sqrt v) := by
  have hs : 0 < Real.sqrt v := Real.sqrt_pos.2 hv
  have h := gaussianReal_map_const_mul (μ := 0) (v := 1) (Real.sqrt v)
  have hvv : (NNReal.mk (Real.sqrt v ^ 2) (sq_nonneg _) * 1 : NNReal) = v.toNNReal := by
    ext
    simp [Real.sq_sqrt hv.le, hv.le]
  rw [mul_zero, hvv] at h
  rw [← h, map_measureReal_apply (by fun_prop) measurableSet_Iic, Phi_eq]
  congr 1
  ext x
  simp only [Set.mem_preimage, Set.mem_Iic]
  rw [le_div_iff₀ hs, mul_comm]

/-- With increasing quantiles the interpolated value does not exceed a quantile exactly if the rank does not exceed its level. -/
theorem interp_le_iff (xs ys : List ℝ) (hx : xs.Pairwise (· < ·)) (hy : ys.Pairwise (· < ·)) (hl : ys.length = xs.length) (h2 : 2 ≤ xs.length) (j : ℕ) (x y : ℝ)
    (hj : xs[j]? = some x) (hj' : ys[j]? = some y) (u : ℝ) : ScenGen.interp xs ys u ≤ y ↔ u ≤ x := by
  obtain ⟨h1, h3⟩ := ScenGen.C54_interpolation xs ys hx hl h2
  have hy' : ys.Pairwise (· ≤ ·) := hy.imp le_of_lt
  have hmono := ScenGen.C54_monotone xs ys hx hy' hl h2
  constructor
  · intro h
    by_contra hu
    rw [not_le] at hu
    have hjl : j < xs.length := by
      by_contra hge
      rw [List.getElem?_eq_none (by omega)] at hj
      cases hj
    have gx : ∀ i, i < xs.length → ∃ a b, xs[i]? = some a ∧ ys[i]? = some b := fun i hi => ⟨xs[i], ys[i]'(by omega), List.getElem?_eq_getElem hi, List.getElem?_eq_getElem (by omega)⟩
    have mono : ∀ (l : List ℝ), l.Pairwise (· < ·) → ∀ i a b, l[i]? = some a → l[i + 1]? = some b → a < b := by
      intro l hp i a b ha hb
      obtain ⟨hi, rfl⟩ := List.getElem?_eq_some_iff.1 ha
      obtain ⟨hi', rfl⟩ := List.getElem?_eq_some_iff.1 hb
      exact List.pairwise_iff_getElem.1 hp _ _ _ _ (by omega)
    by_cases hlast : j + 1 < xs.length
    · obtain ⟨x', y', e1, e2⟩ := gx (j + 1) hlast
      have hxx := mono xs hx j x x' hj e1
      have hyy := mono ys hy j y y' hj' e2
      rcases le_total u x' with hle | hle
      · have := h3 j x y x' y' u hj hj' e1 e2 (Or.inr hu.le) (Or.inr hle)
        have h4 : ScenGen.interp xs ys u * (x' - x) ≤ y * (x' - x) := mul_le_mul_of_nonneg_right h (by linarith)
        have h5 : 0 < (y' - y) * (u - x) := mul_pos (by linarith) (by linarith)
        nlinarith
      · have := hmono x' u hle
        rw [h1 (j + 1) x' y' e1 e2] at this
        linarith
    · obtain ⟨i, rfl⟩ : ∃ i, j = i + 1 := ⟨j - 1, by omega⟩
      obtain ⟨x0, y0, e1, e2⟩ := gx i (by omega)
      have hxx := mono xs hx i x0 x e1 hj
      have hyy := mono ys hy i y0 y e2 hj'
      have := h3 i x0 y0 x y u e1 e2 hj hj' (Or.inr (by linarith)) (Or.inl (by omega))
      have h4 : ScenGen.interp xs ys u * (x - x0) ≤ y * (x - x0) := mul_le_mul_of_nonneg_right h (by linarith)
      have h5 : 0 < (y - y0) * (u - x) := mul_pos (by linarith) (by linarith)
      nlinarith
  · intro h
    have := hmono u x h
    rwa [h1 j x y hj hj'] at this

end PyF.Copula
