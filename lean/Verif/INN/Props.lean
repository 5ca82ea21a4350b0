import Verif.INN.Activation

namespace PyF.INN

open PyF Finset

/-- Ones on the diagonal, zeros above. -/
def UnitLower (k : ℕ → ℕ → ℝ) : Prop := (∀ i, k i i = 1) ∧ ∀ i j, i < j → k i j = 0

theorem kernel_unitLower (s : ℝ) (m : ℕ) (vec : List ℝ) : UnitLower (kernel s m vec) := by
  constructor
  · intro i
    simp [kernel, lowerTri, Real.tanh_zero]
  · intro i j h
    have h1 : ¬ j < i := by omega
    have h2 : i ≠ j := by omega
    simp [kernel, lowerTri, h1, h2, Real.tanh_zero]

theorem row_sum {k : ℕ → ℕ → ℝ} (hk : UnitLower k) {m i : ℕ} (hi : i < m) (x : ℕ → ℝ) : ∑ j ∈ range m, k i j * x j = ∑ j ∈ range i, k i j * x j + x i := by
  have h1 : ∑ j ∈ range m, k i j * x j = ∑ j ∈ range (i + 1), k i j * x j := by
    symm
    apply sum_subset (fun a ha => by simp only [mem_range] at ha ⊢; omega)
    intro j _ hj
    simp only [mem_range, not_lt] at hj
    rw [hk.2 i j (by omega), zero_mul]
  rw [h1, sum_range_succ, hk.1, one_mul]

theorem solve_eq {k : ℕ → ℕ → ℝ} (hk : UnitLower k) (y : ℕ → ℝ) (i : ℕ) : solve k y i = y i - ∑ j ∈ range i, k i j * solve k y j := by
  rw [solve, hk.1, div_one, Finset.sum_range (fun j => k i j * solve k y j)]

/-- Forward substitution solves the system. -/
theorem mul_solve {k : ℕ → ℕ → ℝ} (hk : UnitLower k) (m : ℕ) (y : ℕ → ℝ) (i : ℕ) (hi : i < m) : ∑ j ∈ range m, k i j * solve k y j = y i := by
  rw [row_sum hk hi, solve_eq hk y i]
  ring

/-- ... and it has only one solution. -/
theorem solve_mul {k : ℕ → ℕ → ℝ} (hk : UnitLower k) (m : ℕ) (x y : ℕ → ℝ) (h : ∀ i < m, y i = ∑ j ∈ range m, k i j * x j) (i : ℕ) (hi : i < m) : solve k y i = x i := by
  induction i using Nat.strong_induction_on with
  | _ i ih =>
    rw [solve_eq hk, h i hi, row_sum hk hi]
    have : ∑ j ∈ range i, k i j * solve k y j = ∑ j ∈ range i, k i j * x j := by
      apply sum_congr rfl
      intro j hj
      have hj' := mem_range.1 hj
      rw [ih j hj' (by omega)]
    rw [this]
    ring

theorem solve_congr {k : ℕ → ℕ → ℝ} (y y' : ℕ → ℝ) (i : ℕ) (h : ∀ j ≤ i, y j = y' j) : solve k y i = solve k y' i := by
  induction i using Nat.strong_induction_on with
  | _ i ih =>
    rw [solve, solve, h i le_rfl]
    congr 2
    apply sum_congr rfl
    intro j _
    rw [ih j j.2 (fun a ha => h a (ha.trans j.2.le))]

theorem affine_inv_left (s : ℝ) (m : ℕ) (l : Layer) (x y : ℕ → ℝ) (h : ∀ i < m, y i = affine s m l x i) (i : ℕ) (hi : i < m) : affineInv s m l y i = x i := by
  unfold affineInv
  apply solve_mul (kernel_unitLower s m l.vec) m x _ _ i hi
  intro j hj
  rw [h j hj]
  unfold affine
  ring

theorem affine_inv_right (s : ℝ) (m : ℕ) (l : Layer) (x y : ℕ → ℝ) (h : ∀ i < m, x i = affineInv s m l y i) (i : ℕ) (hi : i < m) : affine s m l x i = y i := by
  unfold affine
  have : ∑ j ∈ range m, kernel s m l.vec i j * x j = ∑ j ∈ range m, kernel s m l.vec i j * affineInv s m l y j := by
    apply sum_congr rfl
    intro j hj
    rw [h j (mem_range.1 hj)]
  rw [this]
  unfold affineInv
  rw [mul_solve (kernel_unitLower s m l.vec) m _ i hi]
  ring

theorem affine_congr (s : ℝ) (m : ℕ) (l : Layer) (x x' : ℕ → ℝ) (i : ℕ) (hi : i < m) (h : ∀ j ≤ i, x j = x' j) : affine s m l x i = affine s m l x' i := by
  unfold affine
  rw [row_sum (kernel_unitLower s m l.vec) hi, row_sum (kernel_unitLower s m l.vec) hi, h i le_rfl]
  congr 2
  apply sum_congr rfl
  intro j hj
  rw [h j (mem_range.1 hj).le]

/-! ### Specification -/

/-- No value fed to an activation is closer to zero than 1e-12. -/
def Clear (s : ℝ) (m : ℕ) : List Layer → (ℕ → ℝ) → Prop
  | [], _ => True
  | [_], _ => True
  | l :: l' :: ls, x => (∀ i < m, eps ≤ |affine s m l x i|) ∧ Clear s m (l' :: ls) (fun i => linloglin (affine s m l x i))

/-- No value fed to the inverse of an activation lies in the gap of the activation's range. -/
def ClearInv (s : ℝ) (m : ℕ) : List Layer → (ℕ → ℝ) → Prop
  | [], _ => True
  | [_], _ => True
  | _ :: l' :: ls, y => (∀ i < m, Real.log (1 + eps) ≤ |invert s m (l' :: ls) y i|) ∧ ClearInv s m (l' :: ls) y

theorem invert_congr (s : ℝ) (m : ℕ) (ls : List Layer) (y y' : ℕ → ℝ) (i : ℕ) (h : ∀ j ≤ i, y j = y' j) : invert s m ls y i = invert s m ls y' i := by
  induction ls generalizing i with
  | nil => exact h i le_rfl
  | cons l ls ih =>
    cases ls with
    | nil =>
      unfold invert affineInv
      exact solve_congr _ _ i (fun j hj => by rw [h j hj])
    | cons l' ls =>
      unfold invert affineInv
      refine solve_congr _ _ i (fun j hj => ?_)
      simp only
      rw [ih j (fun a ha => h a (ha.trans hj))]

/-- **C72.** Embedding and inverting gives back the input, for any number of layers and features, if no value fed to an activation is within 1e-12 of zero. -/
theorem C72_invert_embed (s : ℝ) (m : ℕ) (ls : List Layer) (x : ℕ → ℝ) (hc : Clear s m ls x) (i : ℕ) (hi : i < m) : invert s m ls (embed s m ls x) i = x i := by
  induction ls generalizing x i with
  | nil => rfl
  | cons l ls ih =>
    cases ls with
    | nil => exact affine_inv_left s m l x _ (fun _ _ => rfl) i hi
    | cons l' ls =>
      obtain ⟨h1, h2⟩ := hc
      unfold invert embed
      refine affine_inv_left s m l x _ (fun j hj => ?_) i hi
      rw [ih _ h2 j hj]
      exact inv_act_of_clear (h1 j hj)

/-- **C72.** One layer: always exact, both ways. -/
theorem C72_one_layer (s : ℝ) (m : ℕ) (l : Layer) (x : ℕ → ℝ) (i : ℕ) (hi : i < m) : invert s m [l] (embed s m [l] x) i = x i ∧ embed s m [l] (invert s m [l] x) i = x i :=
  ⟨affine_inv_left s m l x _ (fun _ _ => rfl) i hi, affine_inv_right s m l _ x (fun _ _ => rfl) i hi⟩

/-- **C72.** Inverting and embedding gives back the embedding, if no intermediate value lies in the gap of the activation's range. -/
theorem C72_embed_invert (s : ℝ) (m : ℕ) (ls : List Layer) (y : ℕ → ℝ) (hc : ClearInv s m ls y) (i : ℕ) (hi : i < m) : embed s m ls (invert s m ls y) i = y i := by
  have hcg : ∀ (ls : List Layer) (x x' : ℕ → ℝ) (i : ℕ), i < m → (∀ j ≤ i, x j = x' j) → embed s m ls x i = embed s m ls x' i := by
    intro ls
    induction ls with
    | nil => intro x x' i _ h; exact h i le_rfl
    | cons l ls ih =>
      intro x x' i hi h
      cases ls with
      | nil => exact affine_congr s m l x x' i hi h
      | cons l' ls =>
        unfold embed
        exact ih _ _ i hi (fun j hj => by rw [affine_congr s m l x x' j (by omega) (fun a ha => h a (by omega))])
  induction ls generalizing i with
  | nil => rfl
  | cons l ls ih =>
    cases ls with
    | nil => exact affine_inv_right s m l _ y (fun _ _ => rfl) i hi
    | cons l' ls =>
      obtain ⟨h1, h2⟩ := hc
      unfold embed invert
      rw [hcg (l' :: ls) _ (invert s m (l' :: ls) y) i hi]
      · exact ih h2 i hi
      · intro j hj
        rw [affine_inv_right s m l _ _ (fun _ _ => rfl) j (by omega)]
        exact act_inv_of_clear (h1 j (by omega))

/-- **C72.** Causality: an entry of the embedding depends only on the input up to it. -/
theorem C72_causal_embed (s : ℝ) (m : ℕ) (ls : List Layer) (x x' : ℕ → ℝ) (i : ℕ) (hi : i < m) (h : ∀ j ≤ i, x j = x' j) : embed s m ls x i = embed s m ls x' i := by
  induction ls generalizing x x' i with
  | nil => exact h i le_rfl
  | cons l ls ih =>
    cases ls with
    | nil => exact affine_congr s m l x x' i hi h
    | cons l' ls =>
      unfold embed
      exact ih _ _ i hi (fun j hj => by rw [affine_congr s m l x x' j (by omega) (fun a ha => h a (by omega))])

/-- **C72.** ... and an entry of the inverse only on the embedding up to it. -/
theorem C72_causal_invert (s : ℝ) (m : ℕ) (ls : List Layer) (y y' : ℕ → ℝ) (i : ℕ) (h : ∀ j ≤ i, y j = y' j) : invert s m ls y i = invert s m ls y' i :=
  invert_congr s m ls y y' i h

theorem embed_congr (s : ℝ) (m : ℕ) (ls : List Layer) (x x' : ℕ → ℝ) (h : ∀ j < m, x j = x' j) (i : ℕ) (hi : i < m) : embed s m ls x i = embed s m ls x' i :=
  C72_causal_embed s m ls x x' i hi (fun j hj => h j (by omega))

/-- **C72.** Defect: with two or more layers the embedding is never injective: two inputs differing by 1e-12 in the first layer have the same embedding. -/
theorem C72_not_injective (s : ℝ) (m : ℕ) (hm : 0 < m) (l l' : Layer) (ls : List Layer) :
    ∃ x x', (∃ i < m, x i ≠ x' i) ∧ ∀ i < m, embed s m (l :: l' :: ls) x i = embed s m (l :: l' :: ls) x' i := by
  have ha : ∀ (t : ℕ → ℝ) (j : ℕ), j < m → affine s m l (affineInv s m l t) j = t j := fun t j hj => affine_inv_right s m l _ t (fun _ _ => rfl) j hj
  refine ⟨affineInv s m l (fun _ => 0), affineInv s m l (fun _ => eps), ?_, ?_⟩
  · by_contra hne
    push Not at hne
    have h0 := ha (fun _ => 0) 0 hm
    rw [affine_congr s m l _ (affineInv s m l (fun _ => eps)) 0 hm (fun j hj => hne j (by omega)), ha _ 0 hm] at h0
    exact eps_pos.ne' h0
  · intro i hi
    unfold embed
    apply embed_congr _ _ _ _ _ _ i hi
    intro j hj
    rw [ha _ j hj, ha _ j hj]
    exact act_collision

/-- **C72.** Whatever the parameters, a layer moves an entry away from input plus bias by at most the scaling factor times the largest earlier input. -/
theorem C72_near_identity (s : ℝ) (m : ℕ) (l : Layer) (x : ℕ → ℝ) (i : ℕ) (hi : i < m) (b : ℝ) (hb : ∀ j < i, |x j| ≤ b) (hb0 : 0 ≤ b) :
    |affine s m l x i - (x i + l.bias i)| ≤ |s| * b := by
  have hm : (0 : ℝ) < m := by exact_mod_cast (by omega : 0 < m)
  have e : affine s m l x i - (x i + l.bias i) = ∑ j ∈ range i, kernel s m l.vec i j * x j := by
    unfold affine
    rw [row_sum (kernel_unitLower s m l.vec) hi]
    ring
  rw [e]
  have h1 : ∀ j ∈ range i, |kernel s m l.vec i j * x j| ≤ |s| / m * b := by
    intro j hj
    have hj' := mem_range.1 hj
    rw [abs_mul]
    refine mul_le_mul ?_ (hb j hj') (abs_nonneg _) (by positivity)
    unfold kernel
    rw [if_neg (by omega), add_zero, abs_div, abs_mul, abs_of_pos hm]
    gcongr
    calc |Real.tanh (lowerTri l.vec i j)| * |s| ≤ 1 * |s| := mul_le_mul_of_nonneg_right (Real.abs_tanh_lt_one _).le (abs_nonneg _)
      _ = |s| := one_mul _
  calc |∑ j ∈ range i, kernel s m l.vec i j * x j| ≤ ∑ j ∈ range i, |kernel s m l.vec i j * x j| := abs_sum_le_sum_abs _ _
    _ ≤ ∑ j ∈ range i, |s| / m * b := sum_le_sum h1
    _ = i * (|s| / m * b) := by rw [sum_const, card_range, nsmul_eq_mul]
    _ ≤ m * (|s| / m * b) := by
        apply mul_le_mul_of_nonneg_right _ (by positivity)
        exact_mod_cast hi.le
    _ = |s| * b := by field_simp

/-! ### The triangular parameter -/

/-- **C72.** `vector_to_lower_triangular` writes the vector row by row below the diagonal and zeros elsewhere. -/
theorem C72_triangle (vec : List ℝ) (n : ℕ) (h : vec.length = n * (n - 1) / 2) :
    (List.range n).flatMap (fun i => (List.range i).map (lowerTri vec i)) = vec ∧ ∀ i j, i ≤ j → lowerTri vec i j = 0 := by
  constructor
  · have hstep : ∀ i : ℕ, (i + 1) * i / 2 = i * (i - 1) / 2 + i := by
      intro i
      cases i with
      | zero => rfl
      | succ i =>
        have : (i + 1 + 1) * (i + 1) = (i + 1) * i + (i + 1) * 2 := by ring
        simp only [Nat.add_sub_cancel]
        rw [this, Nat.add_mul_div_right _ _ (by norm_num)]
    have key : ∀ k ≤ n, (List.range k).flatMap (fun i => (List.range i).map (lowerTri vec i)) = vec.take (k * (k - 1) / 2) := by
      intro k
      induction k with
      | zero => intro _; simp
      | succ k ih =>
        intro hk
        rw [List.range_succ, List.flatMap_append, ih (by omega)]
        have hk2 : (k + 1) * (k + 1 - 1) / 2 = k * (k - 1) / 2 + k := hstep k
        rw [hk2, List.take_add]
        congr 1
        have hle : k * (k - 1) / 2 + k ≤ vec.length := by
          rw [h, ← hstep k]
          apply Nat.div_le_div_right
          have : k + 1 ≤ n := hk
          exact Nat.mul_le_mul this (by omega)
        apply List.ext_getElem
        · simp; omega
        · intro j h1 h2
          simp only [List.flatMap_cons, List.flatMap_nil, List.append_nil, List.length_map, List.length_range] at h1
          simp only [List.flatMap_cons, List.flatMap_nil, List.append_nil, List.getElem_map, List.getElem_range, List.getElem_take, List.getElem_drop]
          unfold lowerTri
          rw [if_pos h1]
          simp [List.getD, List.getElem?_eq_getElem (show k * (k - 1) / 2 + j < vec.length by omega)]
    rw [key n le_rfl, ← h, List.take_length]
  · intro i j hij
    unfold lowerTri
    rw [if_neg (by omega)]

/-! ### End-to-end forecasts -/

/-- **C126.** When the history is as long as the horizon, a perfect embedded forecast gives the perfect forecast. -/
theorem C126_equal_lengths (s : ℝ) (n : ℕ) (ls : List Layer) (x y : ℕ → ℝ) (hc : Clear s n ls y) (i : ℕ) (hi : i < n) :
    decodeForecast s n n ls x (targetEmbedding s n n ls x y) i = y i := by
  unfold decodeForecast targetEmbedding lastN
  have h1 : ∀ j, shiftIn n n x y j = y j := by intro j; simp [shiftIn]
  rw [C72_causal_invert s n ls _ (embed s n ls y)]
  · rw [Nat.sub_self, zero_add]
    exact C72_invert_embed s n ls y hc i hi
  · intro j hj
    have hj' : j < n := by omega
    simp only [shiftIn, Nat.sub_self, not_lt_zero, if_false, Nat.sub_zero, zero_add]
    exact embed_congr s n ls _ _ (fun a _ => by simp [shiftIn]) j hj'

/-- **C126.** In general it does so when embedding and shifting the window commute on the overlap. -/
theorem C126_shift_commutes (s : ℝ) (m n : ℕ) (hnm : n ≤ m) (ls : List Layer) (x y : ℕ → ℝ) (hc : Clear s m ls (shiftIn m n x y))
    (hsh : ∀ i < m - n, embed s m ls x (i + n) = embed s m ls (shiftIn m n x y) i) (i : ℕ) (hi : i < n) :
    decodeForecast s m n ls x (targetEmbedding s m n ls x y) i = y i := by
  unfold decodeForecast targetEmbedding lastN
  rw [C72_causal_invert s m ls _ (embed s m ls (shiftIn m n x y))]
  · rw [C72_invert_embed s m ls _ hc _ (by omega)]
    unfold shiftIn
    rw [if_neg (by omega)]
    congr 1
    omega
  · intro j hj
    show (if j < m - n then _ else _) = _
    by_cases hj2 : j < m - n
    · rw [if_pos hj2]
      exact hsh j hj2
    · rw [if_neg hj2]
      show embed s m ls _ (m - n + (j - (m - n))) = _
      rw [Nat.add_sub_cancel' (by omega)]

/-- **C126.** Defect: with one layer, the exact condition under which a perfect embedded forecast gives the perfect forecast: the error made on the past part of the
window, weighted by the kernel, vanishes. -/
theorem C126_one_layer_iff (s : ℝ) (m n : ℕ) (hnm : n ≤ m) (l : Layer) (x y : ℕ → ℝ) :
    (∀ i < n, decodeForecast s m n [l] x (targetEmbedding s m n [l] x y) i = y i) ↔
    ∀ i < n, ∑ j ∈ range (m - n), kernel s m l.vec (m - n + i) j *
      (invert s m [l] (shiftIn m n (embed s m [l] x) (targetEmbedding s m n [l] x y)) j - shiftIn m n x y j) = 0 := by
  set v := invert s m [l] (shiftIn m n (embed s m [l] x) (targetEmbedding s m n [l] x y)) with hv
  set w := shiftIn m n x y with hw
  have hk := kernel_unitLower s m l.vec
  have hwy : ∀ i < n, w (m - n + i) = y i := by
    intro i _
    rw [hw]; unfold shiftIn
    rw [if_neg (by omega)]
    congr 1; omega
  -- the last rows of the system
  have hrow : ∀ i < n, ∑ j ∈ range m, kernel s m l.vec (m - n + i) j * v j = ∑ j ∈ range m, kernel s m l.vec (m - n + i) j * w j := by
    intro i hi
    have h1 : affine s m l v (m - n + i) = shiftIn m n (embed s m [l] x) (targetEmbedding s m n [l] x y) (m - n + i) :=
      affine_inv_right s m l v _ (fun _ _ => rfl) _ (by omega)
    have h2 : shiftIn m n (embed s m [l] x) (targetEmbedding s m n [l] x y) (m - n + i) = affine s m l w (m - n + i) := by
      unfold shiftIn
      rw [if_neg (by omega)]
      show affine s m l w (m - n + _) = _
      congr 1; omega
    have h3 := h1.trans h2
    unfold affine at h3
    linarith
  have hdiff : ∀ i < n, ∑ j ∈ range (m - n), kernel s m l.vec (m - n + i) j * (v j - w j) +
      (∑ a ∈ range i, kernel s m l.vec (m - n + i) (m - n + a) * (v (m - n + a) - w (m - n + a)) + (v (m - n + i) - w (m - n + i))) = 0 := by
    intro i hi
    have h := hrow i hi
    rw [row_sum hk (show m - n + i < m by omega), row_sum hk (show m - n + i < m by omega), sum_range_add, sum_range_add] at h
    simp only [mul_sub, sum_sub_distrib]
    linarith
  have hgoal : ∀ i < n, (decodeForecast s m n [l] x (targetEmbedding s m n [l] x y) i = y i ↔ v (m - n + i) - w (m - n + i) = 0) := by
    intro i hi
    rw [hwy i hi, sub_eq_zero]
    rfl
  constructor
  · intro h i hi
    have h0 : ∀ a < n, v (m - n + a) - w (m - n + a) = 0 := fun a ha => (hgoal a ha).1 (h a ha)
    have h1 := hdiff i hi
    have h2 : ∑ a ∈ range i, kernel s m l.vec (m - n + i) (m - n + a) * (v (m - n + a) - w (m - n + a)) = 0 :=
      sum_eq_zero (fun a ha => by rw [h0 a (by have := mem_range.1 ha; omega), mul_zero])
    rw [h0 i hi, h2, add_zero, add_zero] at h1
    exact h1
  · intro h i hi
    rw [hgoal i hi]
    induction i using Nat.strong_induction_on with
    | _ i ih =>
      have h1 := hdiff i hi
      rw [h i hi, sum_eq_zero (fun a ha => by rw [ih a (mem_range.1 ha) (by have := mem_range.1 ha; omega), mul_zero]), zero_add, zero_add] at h1
      exact h1

/-- **C126.** Defect, concretely: two past values, horizon one, one layer. The decoded forecast is off by the kernel entry times the mismatch of the window. -/
theorem C126_offset (s : ℝ) (l : Layer) (x y : ℕ → ℝ) :
    decodeForecast s 2 1 [l] x (targetEmbedding s 2 1 [l] x y) 0 = y 0 - kernel s 2 l.vec 1 0 * (kernel s 2 l.vec 1 0 * x 0 + l.bias 1 - l.bias 0) := by
  have hk := kernel_unitLower s 2 l.vec
  have h0 : ∀ z, affine s 2 l z 0 = z 0 + l.bias 0 := by
    intro z
    unfold affine
    rw [row_sum hk (by norm_num)]
    simp
  have h1 : ∀ z, affine s 2 l z 1 = kernel s 2 l.vec 1 0 * z 0 + z 1 + l.bias 1 := by
    intro z
    unfold affine
    rw [row_sum hk (by norm_num)]
    simp
  unfold decodeForecast lastN invert affineInv targetEmbedding lastN embed
  rw [solve_eq hk]
  simp only [show (2 - 1 : ℕ) = 1 from rfl, Nat.add_zero, sum_range_one]
  rw [solve_eq hk]
  simp only [range_zero, sum_empty, sub_zero, shiftIn, show (2 - 1 : ℕ) = 1 from rfl, lt_irrefl, if_false, Nat.sub_self, zero_lt_one, if_true, zero_add, Nat.add_zero]
  rw [h1, h1, show shiftIn 2 1 x y 0 = x 1 from rfl, show shiftIn 2 1 x y 1 = y 0 from rfl]
  ring

end PyF.INN
