import Verif.ICNN.Props

/-!
The "quasi-convex" network (`PIQCNN`), the latent network, and the augmented sigmoid network.
-/

namespace PyF.ICNN

open PyF

/-- **C116.** Every `PIQCNN` output, whatever the weights, depth and bounds, is smallest at zero controls (zero in the normalised scale): the position of the
minimum cannot be learned. -/
theorem C116_minimum_at_zero (c : Cfg) (nOut : ℕ) (lays : List LayerP) (ex : (ℕ → ℝ) → ℕ → ℝ) (xd : ℕ) (x y o o0 : ℕ → ℝ)
    (ho : applyPIQ c nOut lays ex xd x y = .ok o) (ho0 : applyPIQ c nOut lays ex xd x (fun _ => 0) = .ok o0) (j : ℕ) : o0 j ≤ o j ∧ o0 j = ex x j := by
  unfold applyPIQ at ho ho0
  by_cases hs : shapesOk c nOut lays.length nOut = true
  · rw [if_pos hs] at ho ho0
    cases ho; cases ho0
    have h0 : jvp (fun y' => forward c nOut lays xd x nOut (fun _ => 1) y' j) (fun _ => 0) (fun _ => 0) = 0 := by
      unfold jvp
      simp
    simp only [h0, abs_zero, zero_add]
    exact ⟨by have := abs_nonneg (jvp (fun y' => forward c nOut lays xd x nOut (fun _ => 1) y' j) y y); linarith, trivial⟩
  · rw [if_neg hs] at ho; cases ho

theorem augY_line (c : Cfg) (y v : ℕ → ℝ) (s : ℝ) (i : ℕ) : augY c (fun k => y k + s * v k) i = augY c y i + s * augY c v i := by
  simp only [augY]
  split
  · split
    · rfl
    · ring
  · rfl

/-- The part of a layer that reads the controls. -/
noncomputable def yPart (c : Cfg) (p : LayerP) (nu : ℕ) (u y : ℕ → ℝ) (j : ℕ) : ℝ :=
  denseNoBias (bdim (yDim c) c.ny) p.wy (fun i => augY c y (bidx (yDim c) i) * c.recAct (dense nu p.wyu u (bidx c.ny i))) j

theorem yPart_line (c : Cfg) (p : LayerP) (nu : ℕ) (u y v : ℕ → ℝ) (s : ℝ) (j : ℕ) :
    yPart c p nu u (fun k => y k + s * v k) j = yPart c p nu u y j + s * yPart c p nu u v j := by
  simp only [yPart, denseNoBias, Finset.mul_sum]
  rw [← Finset.sum_add_distrib]
  apply Finset.sum_congr rfl
  intro i _
  rw [augY_line]
  ring

theorem yPart_seg (c : Cfg) (p : LayerP) (nu : ℕ) (u y y' : ℕ → ℝ) (s : ℝ) (j : ℕ) :
    yPart c p nu u (seg s y y') j = (1 - s) * yPart c p nu u y j + s * yPart c p nu u y' j := by
  have h1 : seg s y y' = fun k => y k + s * (y' k + (-1) * y k) := by
    funext k; simp only [seg]; ring
  rw [h1]
  have h2 := yPart_line c p nu u y (fun k => y' k + (-1) * y k) s j
  have h3 := yPart_line c p nu u y' y (-1) j
  rw [h2, h3]
  ring

/-- **C116.** With a single layer and no bounds the `PIQCNN` output is convex in the controls, whatever the weights. -/
theorem C116_single_layer_convex (aug : Bool) (nOpt nx lat nOut : ℕ) (p : LayerP) (ex : (ℕ → ℝ) → ℕ → ℝ) (xd : ℕ) (x y y' : ℕ → ℝ) (s : ℝ) (h0 : 0 ≤ s) (h1 : s ≤ 1)
    (o o' os : ℕ → ℝ) (ho : applyPIQ (cfgPIQ aug nOpt nx lat none) nOut [p] ex xd x y = .ok o)
    (ho' : applyPIQ (cfgPIQ aug nOpt nx lat none) nOut [p] ex xd x y' = .ok o')
    (hos : applyPIQ (cfgPIQ aug nOpt nx lat none) nOut [p] ex xd x (seg s y y') = .ok os) (j : ℕ) : os j ≤ (1 - s) * o j + s * o' j := by
  have hj : ∀ v, jvp (fun y' => forward (cfgPIQ aug nOpt nx lat none) nOut [p] xd x nOut (fun _ => 1) y' j) v v
      = yPart (cfgPIQ aug nOpt nx lat none) p xd x v j := by
    intro v
    unfold jvp
    set c := cfgPIQ aug nOpt nx lat none with hc
    have hz : c.zb = none := rfl
    have : (fun s : ℝ => forward c nOut [p] xd x nOut (fun _ => 1) (fun i => v i + s * v i) j)
        = fun s : ℝ => (denseNoBias (bdim nOut c.lat) p.wz (fun i => 1 * relu (dense xd p.wzu x (bidx c.lat i))) j + yPart c p xd x v j
          + dense xd p.wuz x j) + s * yPart c p xd x v j := by
      funext s
      simp only [forward, hz, bound, pre]
      have := yPart_line c p xd x v v s j
      unfold yPart at this
      rw [this]
      unfold yPart
      ring
    rw [this]
    simp
  unfold applyPIQ at ho ho' hos
  by_cases hs : shapesOk (cfgPIQ aug nOpt nx lat none) nOut [p].length nOut = true
  · rw [if_pos hs] at ho ho' hos
    cases ho; cases ho'; cases hos
    simp only [hj, yPart_seg]
    have := abs_add_le ((1 - s) * yPart (cfgPIQ aug nOpt nx lat none) p xd x y j) (s * yPart (cfgPIQ aug nOpt nx lat none) p xd x y' j)
    rw [abs_mul, abs_mul, abs_of_nonneg (sub_nonneg.2 h1), abs_of_nonneg h0] at this
    nlinarith
  · rw [if_neg hs] at ho; cases ho

/-! ### Witnesses -/

/-- A dense layer with constant kernel and bias. -/
def cst (k b : ℝ) : Dense := ⟨fun _ _ => k, fun _ => b⟩

/-- First layer of the witness: the activation of the (single) control. -/
def wit1 : LayerP := ⟨cst 0 0, cst 0 1, cst 0 0, cst 1 0, cst 0 0, cst 0 0⟩

/-- Second layer of the witness: passes the latent value on. -/
def wit2 : LayerP := ⟨cst 0 1, cst 0 0, cst 1 0, cst 0 0, cst 0 0, cst 0 0⟩

theorem wit_forward (c : Cfg) (h1 : c.aug = false) (h2 : c.nc = 1) (h3 : c.ny = 1) (h4 : c.lat = 1) (h5 : c.zb = none) (h6 : c.recAct = id)
    (u z y : ℕ → ℝ) (j : ℕ) : forward c 1 [wit1, wit2] 0 u 1 z y j = c.act (y 0) := by
  have hy : yDim c = 1 := by simp [yDim, h1, h2]
  simp [forward, pre, denseNoBias, dense, wit1, wit2, cst, hy, h3, h4, h5, h6, bdim, bidx, bound, relu, augY, h1]

/-- **C116.** Defect: with two layers the `PIQCNN` output is not quasi-convex. There are weights meeting the projection (all non-negative) for which a point
between two control values gets a larger output than both. -/
theorem C116_not_quasiconvex : ∃ (lays : List LayerP) (y y' : ℕ → ℝ) (o o' os : ℕ → ℝ),
    (∀ p ∈ lays, (∀ i j, 0 ≤ p.wz.kernel i j) ∧ (∀ i j, 0 ≤ p.wy.kernel i j)) ∧ lays.length = 2 ∧
    applyPIQ (cfgPIQ false 1 1 1 none) 1 lays (fun _ _ => 0) 0 (fun _ => 0) y = .ok o ∧
    applyPIQ (cfgPIQ false 1 1 1 none) 1 lays (fun _ _ => 0) 0 (fun _ => 0) y' = .ok o' ∧
    applyPIQ (cfgPIQ false 1 1 1 none) 1 lays (fun _ _ => 0) 0 (fun _ => 0) (seg (1 / 4) y' y) = .ok os ∧
    max (o 0) (o' 0) < os 0 := by
  have hj : ∀ v : ℕ → ℝ, ∀ j, jvp (fun y' => forward (cfgPIQ false 1 1 1 none) 1 [wit1, wit2] 0 (fun _ => 0) 1 (fun _ => 1) y' j) v v
      = Real.sigmoid (v 0) * v 0 := by
    intro v j
    unfold jvp
    have : (fun s : ℝ => forward (cfgPIQ false 1 1 1 none) 1 [wit1, wit2] 0 (fun _ => 0) 1 (fun _ => 1) (fun i => v i + s * v i) j)
        = fun s : ℝ => softplus (v 0 + s * v 0) := by
      funext s
      rw [wit_forward _ rfl rfl rfl rfl rfl rfl]
      rfl
    rw [this]
    have hin : HasDerivAt (fun s : ℝ => v 0 + s * v 0) (v 0) 0 := by
      simpa using ((hasDerivAt_id (0 : ℝ)).mul_const (v 0)).const_add (v 0)
    have hout : HasDerivAt softplus (Real.sigmoid (v 0)) (v 0 + 0 * v 0) := by
      have := hasDerivAt_softplus (v 0)
      simpa using this
    exact (hout.comp (0 : ℝ) hin).deriv
  refine ⟨[wit1, wit2], fun _ => -4, fun _ => 0, _, _, _, ?_, rfl, by unfold applyPIQ; exact if_pos (by decide), by unfold applyPIQ; exact if_pos (by decide),
    by unfold applyPIQ; exact if_pos (by decide), ?_⟩
  · intro p hp
    simp only [List.mem_cons, List.not_mem_nil, or_false] at hp
    rcases hp with rfl | rfl <;> simp [wit1, wit2, cst]
  · simp only [hj, seg]
    norm_num
    rw [Real.sigmoid_def, Real.sigmoid_def]
    have hx : (2 : ℝ) < Real.exp 1 := by
      have := Real.add_one_lt_exp (x := 1) (by norm_num)
      linarith
    have h4 : Real.exp 4 = Real.exp 1 ^ 4 := by
      rw [← Real.exp_nat_mul]; norm_num
    simp only [neg_neg]
    rw [h4]
    set e := Real.exp 1 with he
    have hp1 : 0 < (1 + e)⁻¹ := by positivity
    have hp2 : 0 < (1 + e ^ 4)⁻¹ := by positivity
    rw [abs_of_pos hp1, abs_of_pos hp2]
    have hkey : 4 * (1 + e) < 1 + e ^ 4 := by
      have h8 : 8 ≤ e ^ 3 := by nlinarith [mul_self_nonneg (e - 2), sq_nonneg e]
      nlinarith
    rw [inv_mul_eq_div, div_lt_iff₀ (by positivity), inv_mul_eq_div, lt_div_iff₀ (by positivity)]
    linarith

/-- **C117.** The latent network is convex in the embedding: its predictor sub-module is an input-convex network. -/
theorem C117_convex_in_embedding (rs m : Bool) (t t' : Tree) (hproj : reproject rs m t = .ok t') (ls : List (Name × LayerPars))
    (hpred : t'.lookup "PICNNLayer_picnn".toList = some (.sub ls)) (n : ℕ) (lays : List LayerP) (hr : readSubNet ls 0 n = some lays)
    (aug : Bool) (nEmb nx lat xd : ℕ) (x e e' : ℕ → ℝ) (s : ℝ) (h0 : 0 ≤ s) (h1 : s ≤ 1) (o o' os : ℕ → ℝ)
    (ho : apply (cfgPICNN aug nEmb nx lat none) lays xd x e = .ok o) (ho' : apply (cfgPICNN aug nEmb nx lat none) lays xd x e' = .ok o')
    (hos : apply (cfgPICNN aug nEmb nx lat none) lays xd x (seg s e e') = .ok os) (j : ℕ) : os j ≤ (1 - s) * o j + s * o' j := by
  rw [(apply_ok ho).2, (apply_ok ho').2, (apply_ok hos).2]
  have hP : sPicnn <:+: "PICNNLayer_picnn".toList := by decide
  have hwz : ∀ p ∈ lays, ∀ i j, 0 ≤ p.wz.kernel i j := by
    intro p hp i j
    obtain ⟨k, ps, h1, h2⟩ := readSubNet_mem hr p hp
    exact C73_nonneg rs m t t' hproj (.three "PICNNLayer_picnn".toList (layerName k) sWz) ⟨hP, Or.inl rfl⟩ p.wz
      (by simp only [get, hpred, h1, (readLayer_wz h2).1]) i j
  exact forward_convex (cfgPICNN aug nEmb nx lat none) rfl relu_cvxMono lat lays hwz xd x lat (fun _ _ => 1) (fun _ => ConvexIn.const 1) j e e' s h0 h1

/-- The predictor of the witness: minus the embedding. -/
def witNeg : LayerP := ⟨cst 0 0, cst 0 1, cst 0 0, cst (-1) 0, cst 0 0, cst 0 0⟩

/-- **C117.** Defect: as a function of the controls the latent network is not convex. There are weights meeting the projection (`wz` non-negative) for which
the prediction lies above a chord. -/
theorem C117_not_convex_in_controls : ∃ (enc pred : List LayerP) (y y' : ℕ → ℝ) (o o' os : ℕ → ℝ),
    (∀ p ∈ enc ++ pred, ∀ i j, 0 ≤ p.wz.kernel i j) ∧
    applyLatent (cfgPICNN false 1 1 1 none) (cfgPICNN false 1 1 1 none) enc pred 0 (fun _ => 0) y = .ok o ∧
    applyLatent (cfgPICNN false 1 1 1 none) (cfgPICNN false 1 1 1 none) enc pred 0 (fun _ => 0) y' = .ok o' ∧
    applyLatent (cfgPICNN false 1 1 1 none) (cfgPICNN false 1 1 1 none) enc pred 0 (fun _ => 0) (seg (1 / 2) y y') = .ok os ∧
    (1 - 1 / 2) * o 0 + 1 / 2 * o' 0 < os 0 := by
  have hv : ∀ v : ℕ → ℝ, applyLatent (cfgPICNN false 1 1 1 none) (cfgPICNN false 1 1 1 none) [wit1, wit2] [witNeg] 0 (fun _ => 0) v = .ok (fun _ => - relu (v 0)) := by
    intro v
    have h1 : apply (cfgPICNN false 1 1 1 none) [wit1, wit2] 0 (fun _ => 0) v = .ok (fun _ => relu (v 0)) := by
      unfold apply
      rw [if_pos (by decide)]
      congr 1
      funext j
      exact wit_forward (cfgPICNN false 1 1 1 none) rfl rfl rfl rfl rfl rfl _ _ _ _
    unfold applyLatent
    rw [h1]
    simp only
    unfold apply
    rw [if_pos (by decide)]
    congr 1
    funext j
    simp [forward, pre, denseNoBias, dense, witNeg, cst, cfgPICNN, hiddenY, bdim, bidx, yDim, bound, augY, relu]
  refine ⟨[wit1, wit2], [witNeg], fun _ => -1, fun _ => 1, _, _, _, ?_, hv _, hv _, hv _, ?_⟩
  · intro p hp
    simp only [List.cons_append, List.nil_append, List.mem_cons, List.not_mem_nil, or_false] at hp
    rcases hp with rfl | rfl | rfl <;> simp [wit1, wit2, witNeg, cst]
  · simp only [relu, seg]
    norm_num

/-- The weights of the augmented witness: only the mirrored control is used. -/
def witAug : LayerP := ⟨cst 0 0, cst 0 0, cst 0 0, ⟨fun i _ => if i = 1 then 1 else 0, fun _ => 0⟩, cst 0 0, cst 0 0⟩

/-- **C71.** With `augment_ctrl_inputs=True` the monotone rule does not give a monotone network: there are non-negative weights for which raising the control
lowers the output. -/
theorem C71_augment_not_monotone : ∃ (p : LayerP) (y y' : ℕ → ℝ) (o o' : ℕ → ℝ),
    (∀ i j, 0 ≤ p.wz.kernel i j) ∧ (∀ i j, 0 ≤ p.wy.kernel i j) ∧ (∀ i, y i ≤ y' i) ∧
    apply (cfgSigmoid true 1 1 1 none) [p] 0 (fun _ => 0) y = .ok o ∧ apply (cfgSigmoid true 1 1 1 none) [p] 0 (fun _ => 0) y' = .ok o' ∧ o' 0 < o 0 := by
  have hv : ∀ v : ℕ → ℝ, apply (cfgSigmoid true 1 1 1 none) [witAug] 0 (fun _ => 0) v = .ok (fun _ => - (v 0 * 2⁻¹)) := by
    intro v
    unfold apply
    rw [if_pos (by decide)]
    congr 1
    funext j
    simp [forward, pre, denseNoBias, dense, witAug, cst, cfgSigmoid, hiddenY, bdim, bidx, yDim, bound, augY]
  refine ⟨witAug, fun _ => 0, fun _ => 1, _, _, ?_, ?_, fun _ => zero_le_one, hv _, hv _, ?_⟩
  · intro i j; simp [witAug, cst]
  · intro i j; simp only [witAug]; split <;> norm_num
  · norm_num

end PyF.ICNN
