import Verif.Rff.Model
import Verif.RffKernel.Lemmas
import Mathlib.Probability.Moments.Variance

/-! C292: random Fourier features and the Gaussian kernel. -/

namespace PyF.RffKernel
open PyF PyF.Rff MeasureTheory ProbabilityTheory

variable {Ω : Type} [MeasurableSpace Ω]

/-- Draws as numpy makes them for a new object of kind `rff` with `p` features: the entries of the matrix are `std` times standard normal numbers, the phases are uniform on
`[0, 2π)`, all numbers of a column are independent (`get_rff_matrix` and `np.random.uniform`). -/
structure Draws (P : Measure Ω) (E : Ω → Env) (o : Obj) (std : ℝ) (p : ℕ) where
  N : Ω → ℕ → ℕ → ℝ
  gen : ∀ ω i c, (E ω).gen o.draws p i c = std * N ω i c
  law : ∀ c < o.dim, P.map (fun ω => ((fun i : Fin p => N ω i c), (E ω).unif (o.draws + 1 + c) c)) = (normals p).prod phase

/-- The columns are independent of one another. -/
def Draws.Independent {P : Measure Ω} {E : Ω → Env} {o : Obj} {std : ℝ} {p : ℕ} (D : Draws P E o std p) : Prop :=
  ∀ c < o.dim, ∀ c' < o.dim, c ≠ c' → IndepFun (fun ω => ((fun i : Fin p => D.N ω i c), (E ω).unif (o.draws + 1 + c) c))
    (fun ω => ((fun i : Fin p => D.N ω i c'), (E ω).unif (o.draws + 1 + c') c')) P

/-- The Gaussian kernel of width `1 / std`. -/
noncomputable def gaussKernel (std : ℝ) (p : ℕ) (x y : List ℝ) : ℝ := Real.exp (-(std ^ 2 * ∑ i ∈ Finset.range p, (x.getD i 0 - y.getD i 0) ^ 2) / 2)

/-- The product of the features of two rows, summed over the features: what a linear regression on the features sees of the two rows. -/
noncomputable def inner (a b : List ℝ) : ℝ := (List.zipWith (· * ·) a b).sum

/-- Feature `c` of a row, by the numbers of its column. -/
noncomputable def feat (std : ℝ) (p : ℕ) (x : List ℝ) (z : (Fin p → ℝ) × ℝ) : ℝ := Real.cos (∑ i : Fin p, x.getD i 0 * (std * z.1 i) + z.2)

theorem sum_range_map (f : ℕ → ℝ) (k : ℕ) : ((List.range k).map f).sum = ∑ c ∈ Finset.range k, f c := by
  induction k with
  | zero => rfl
  | succ k ih => rw [List.range_succ, List.map_append, List.sum_append, ih, Finset.sum_range_succ, List.map_singleton, List.sum_singleton]

theorem feat_abs (std : ℝ) (p : ℕ) (x : List ℝ) (z : (Fin p → ℝ) × ℝ) : |feat std p x z| ≤ 1 := Real.abs_cos_le_one _

theorem feat_continuous (std : ℝ) (p : ℕ) (x : List ℝ) : Continuous (feat std p x) := by
  unfold feat
  fun_prop

theorem conv_fresh {P : Measure Ω} {E : Ω → Env} {o : Obj} {std : ℝ} {p : ℕ} (D : Draws P E o std p) (hW : o.W = none) (hb : o.b = none) (rows : List (List ℝ)) (ω : Ω) :
    conv (setWeight (E ω) o p) ⟨p, rows⟩ = .ok (rows.map (fun x => (List.range o.dim).map (fun c =>
      feat std p x ((fun i : Fin p => D.N ω i c), (E ω).unif (o.draws + 1 + c) c)))) := by
  have hs : setWeight (E ω) o p = ⟨o.dim, some ⟨p, o.dim, (E ω).gen o.draws p⟩, some ((List.range o.dim).map (fun (i : Nat) => (E ω).unif (o.draws + 1 + i) i)), o.reg, o.draws + 1 + o.dim⟩ := by
    unfold setWeight
    rw [hW, hb]
  rw [hs]
  unfold conv
  simp only [ne_eq, not_true, if_false, List.length_map, List.length_range, outWidth, if_true]
  congr 1
  refine List.map_congr_left (fun x _ => ?_)
  unfold convRow
  refine List.map_congr_left (fun c hc => ?_)
  rw [List.mem_range] at hc
  have h1 : (if o.dim = 1 then 0 else c) = c := by
    split
    · omega
    · rfl
  simp only [List.length_map, List.length_range, h1]
  unfold feat
  congr 2
  · rw [sum_range_map, Finset.sum_range]
    exact Finset.sum_congr rfl fun i _ => by rw [D.gen]
  · simp [List.getD_eq_getElem?_getD, hc]

theorem inner_eq {P : Measure Ω} {E : Ω → Env} {o : Obj} {std : ℝ} {p : ℕ} (D : Draws P E o std p) (x y : List ℝ) (ω : Ω) (k : ℕ) :
    inner ((List.range k).map (fun c => feat std p x ((fun i : Fin p => D.N ω i c), (E ω).unif (o.draws + 1 + c) c)))
      ((List.range k).map (fun c => feat std p y ((fun i : Fin p => D.N ω i c), (E ω).unif (o.draws + 1 + c) c))) =
    ∑ c ∈ Finset.range k, (fun z => feat std p x z * feat std p y z) ((fun i : Fin p => D.N ω i c), (E ω).unif (o.draws + 1 + c) c) := by
  unfold inner
  rw [List.zipWith_map, List.zipWith_self, sum_range_map]

theorem product_abs (std : ℝ) (p : ℕ) (x y : List ℝ) (z : (Fin p → ℝ) × ℝ) : |feat std p x z * feat std p y z| ≤ 1 := by
  rw [abs_mul]
  exact mul_le_one₀ (feat_abs _ _ _ _) (abs_nonneg _) (feat_abs _ _ _ _)

theorem column_aemeasurable {P : Measure Ω} {E : Ω → Env} {o : Obj} {std : ℝ} {p : ℕ} (D : Draws P E o std p) (c : ℕ) (hc : c < o.dim) :
    AEMeasurable (fun ω => ((fun i : Fin p => D.N ω i c), (E ω).unif (o.draws + 1 + c) c)) P :=
  aemeasurable_of_map_neZero (by rw [D.law c hc]; infer_instance)

theorem product_memLp {P : Measure Ω} [IsProbabilityMeasure P] {E : Ω → Env} {o : Obj} {std : ℝ} {p : ℕ} (D : Draws P E o std p) (x y : List ℝ) (c : ℕ) (hc : c < o.dim) :
    MemLp (fun ω => (fun z => feat std p x z * feat std p y z) ((fun i : Fin p => D.N ω i c), (E ω).unif (o.draws + 1 + c) c)) 2 P := by
  have hm : Measurable (fun z : (Fin p → ℝ) × ℝ => feat std p x z * feat std p y z) := ((feat_continuous std p x).mul (feat_continuous std p y)).measurable
  refine MemLp.of_bound (hm.comp_aemeasurable (column_aemeasurable D c hc)).aestronglyMeasurable 1 (Filter.Eventually.of_forall fun ω => ?_)
  exact product_abs _ _ _ _ _

theorem product_mean {P : Measure Ω} {E : Ω → Env} {o : Obj} {std : ℝ} {p : ℕ} (D : Draws P E o std p) (x y : List ℝ) (c : ℕ) (hc : c < o.dim) :
    ∫ ω, (fun z => feat std p x z * feat std p y z) ((fun i : Fin p => D.N ω i c), (E ω).unif (o.draws + 1 + c) c) ∂P = gaussKernel std p x y / 2 := by
  have hm : Measurable (fun z : (Fin p → ℝ) × ℝ => feat std p x z * feat std p y z) := ((feat_continuous std p x).mul (feat_continuous std p y)).measurable
  rw [← integral_map (column_aemeasurable D c hc) hm.aestronglyMeasurable, D.law c hc]
  unfold feat
  rw [product_expectation p std (fun i => x.getD i 0) (fun i => y.getD i 0)]
  unfold gaussKernel
  rw [Finset.sum_range]

/-- C292 (kernel): the features that a new regressor of kind `rff` computes are, in expectation over its random numbers, those of the Gaussian kernel of width `1 / std_kernel`: the
products of the features of two rows add up to `dim_kernel / 2` times the kernel of the rows. -/
theorem C292_kernel (P : Measure Ω) [IsProbabilityMeasure P] (E : Ω → Env) (o : Obj) (std : ℝ) (p : ℕ) (D : Draws P E o std p) (hW : o.W = none) (hb : o.b = none) (x y : List ℝ) :
    ∃ zx zy : Ω → List ℝ, (∀ ω, conv (setWeight (E ω) o p) ⟨p, [x, y]⟩ = .ok [zx ω, zy ω]) ∧ (∀ ω, (zx ω).length = o.dim) ∧
      ∫ ω, inner (zx ω) (zy ω) ∂P = o.dim / 2 * gaussKernel std p x y := by
  refine ⟨_, _, fun ω => conv_fresh D hW hb [x, y] ω, fun ω => by rw [List.length_map, List.length_range], ?_⟩
  simp_rw [inner_eq D x y]
  rw [integral_finsetSum _ (fun c hc => (product_memLp D x y c (Finset.mem_range.1 hc)).integrable (by norm_num))]
  rw [Finset.sum_congr rfl (fun c hc => product_mean D x y c (Finset.mem_range.1 hc)), Finset.sum_const, Finset.card_range, nsmul_eq_mul]
  ring

/-- C292 (accuracy): with independent columns the mean square deviation from the kernel falls with the number of features: `2 / dim_kernel` times the products of the features are
within `4 / dim_kernel` of the kernel in mean square. -/
theorem C292_accuracy (P : Measure Ω) [IsProbabilityMeasure P] (E : Ω → Env) (o : Obj) (std : ℝ) (p : ℕ) (D : Draws P E o std p) (hi : D.Independent) (hd : 0 < o.dim)
    (hW : o.W = none) (hb : o.b = none) (x y : List ℝ) :
    ∃ zx zy : Ω → List ℝ, (∀ ω, conv (setWeight (E ω) o p) ⟨p, [x, y]⟩ = .ok [zx ω, zy ω]) ∧
      ∫ ω, (2 / (o.dim : ℝ) * inner (zx ω) (zy ω) - gaussKernel std p x y) ^ 2 ∂P ≤ 4 / (o.dim : ℝ) := by
  have hd' : (0 : ℝ) < o.dim := by exact_mod_cast hd
  have hm : Measurable (fun z : (Fin p → ℝ) × ℝ => feat std p x z * feat std p y z) := ((feat_continuous std p x).mul (feat_continuous std p y)).measurable
  refine ⟨_, _, fun ω => conv_fresh D hW hb [x, y] ω, ?_⟩
  simp_rw [inner_eq D x y]
  set X : ℕ → Ω → ℝ := fun c ω => (fun z => feat std p x z * feat std p y z) ((fun i : Fin p => D.N ω i c), (E ω).unif (o.draws + 1 + c) c) with hX
  have hLp : ∀ c ∈ Finset.range o.dim, MemLp (X c) 2 P := fun c hc => product_memLp D x y c (Finset.mem_range.1 hc)
  have hmean : ∫ ω, 2 / (o.dim : ℝ) * ∑ c ∈ Finset.range o.dim, X c ω ∂P = gaussKernel std p x y := by
    rw [integral_const_mul, integral_finsetSum _ (fun c hc => (hLp c hc).integrable (by norm_num)),
      Finset.sum_congr rfl (fun c hc => product_mean D x y c (Finset.mem_range.1 hc)), Finset.sum_const, Finset.card_range, nsmul_eq_mul]
    field_simp
  have hsum : MemLp (∑ c ∈ Finset.range o.dim, X c) 2 P := memLp_finsetSum' _ hLp
  have hae : AEMeasurable (fun ω => 2 / (o.dim : ℝ) * ∑ c ∈ Finset.range o.dim, X c ω) P := by
    have := hsum.aestronglyMeasurable.aemeasurable.const_mul (2 / (o.dim : ℝ))
    simpa [Finset.sum_apply] using this
  have hv := variance_eq_integral hae
  rw [hmean] at hv
  show ∫ ω, (2 / (o.dim : ℝ) * ∑ c ∈ Finset.range o.dim, X c ω - gaussKernel std p x y) ^ 2 ∂P ≤ 4 / (o.dim : ℝ)
  rw [← hv, variance_const_mul]
  have hfun : (fun ω => ∑ c ∈ Finset.range o.dim, X c ω) = ∑ c ∈ Finset.range o.dim, X c := by
    funext ω
    rw [Finset.sum_apply]
  rw [hfun, IndepFun.variance_sum hLp]
  · have hb : ∀ c ∈ Finset.range o.dim, variance (X c) P ≤ 1 := by
      intro c hc
      have := variance_le_sq_of_bounded (a := -1) (b := 1) (μ := P) (X := X c) (Filter.Eventually.of_forall fun ω => abs_le.1 (product_abs std p x y _)) (hLp c hc).aestronglyMeasurable.aemeasurable
      norm_num at this
      exact this
    have := Finset.sum_le_card_nsmul _ _ 1 hb
    rw [Finset.card_range, nsmul_eq_mul, mul_one] at this
    calc (2 / (o.dim : ℝ)) ^ 2 * ∑ c ∈ Finset.range o.dim, variance (X c) P ≤ (2 / (o.dim : ℝ)) ^ 2 * o.dim := mul_le_mul_of_nonneg_left this (by positivity)
      _ = 4 / o.dim := by
        field_simp
        norm_num
  · intro c hc c' hc' hne
    exact (hi c (by simpa using hc) c' (by simpa using hc') hne).comp hm hm

end PyF.RffKernel
