import Verif.ICNN.Lemmas
import Verif.ICNN.Proj

namespace PyF.ICNN

open PyF

/-! ### Reading the layers from the projected dictionary -/

theorem picnn_in_layerName (i : ℕ) : sPicnn <:+: layerName i := by
  unfold layerName
  refine ⟨[], "_".toList ++ Nat.toDigits 10 i, ?_⟩
  have : "PICNNLayer_".toList = sPicnn ++ "_".toList := by decide
  rw [this]
  simp

theorem readLayer_wz {ps : LayerPars} {p : LayerP} (h : readLayer ps = some p) : ps.lookup sWz = some p.wz ∧ ps.lookup sWy = some p.wy := by
  unfold readLayer at h
  cases h1 : ps.lookup sWzu with
  | none => simp [h1] at h
  | some a =>
    cases h2 : ps.lookup sWyu with
    | none => simp [h1, h2] at h
    | some b =>
      cases h3 : ps.lookup sWz with
      | none => simp [h1, h2, h3] at h
      | some d =>
        cases h4 : ps.lookup sWy with
        | none => simp [h1, h2, h3, h4] at h
        | some e =>
          cases h5 : ps.lookup sWuz with
          | none => simp [h1, h2, h3, h4, h5] at h
          | some f =>
            simp only [h1, h2, h3, h4, h5, Option.bind_eq_bind, Option.bind_some, Option.pure_def, Option.some.injEq] at h
            subst h
            exact ⟨rfl, rfl⟩

theorem readNet_mem {t : Tree} {a n : ℕ} {lays : List LayerP} (h : readNet t a n = some lays) :
    lays.length = n ∧ ∀ p ∈ lays, ∃ i ps, t.lookup (layerName i) = some (.layer ps) ∧ readLayer ps = some p := by
  induction n generalizing a lays with
  | zero => cases h; simp
  | succ n ih =>
    unfold readNet at h
    cases h1 : t.lookup (layerName a) with
    | none => rw [h1] at h; cases h
    | some nd =>
      cases h2 : nodeLayer nd with
      | none => rw [h1] at h; simp only at h; rw [h2] at h; cases h
      | some p =>
        cases h3 : readNet t (a + 1) n with
        | none => rw [h1] at h; simp only at h; rw [h2, h3] at h; cases h
        | some ps =>
          rw [h1] at h; simp only at h; rw [h2, h3] at h; cases h
          obtain ⟨hl, hm⟩ := ih h3
          refine ⟨by simp [hl], ?_⟩
          intro q hq
          rcases List.mem_cons.1 hq with rfl | hq
          · cases nd with
            | layer qs => exact ⟨a, qs, h1, h2⟩
            | sub ls => cases h2
          · exact hm q hq

theorem readSubNet_mem {ls : List (Name × LayerPars)} {a n : ℕ} {lays : List LayerP} (h : readSubNet ls a n = some lays) :
    ∀ p ∈ lays, ∃ i ps, ls.lookup (layerName i) = some ps ∧ readLayer ps = some p := by
  induction n generalizing a lays with
  | zero => cases h; simp
  | succ n ih =>
    unfold readSubNet at h
    cases h1 : ls.lookup (layerName a) with
    | none => rw [h1] at h; cases h
    | some qs =>
      cases h2 : readLayer qs with
      | none => rw [h1] at h; simp only at h; rw [h2] at h; cases h
      | some p =>
        cases h3 : readSubNet ls (a + 1) n with
        | none => rw [h1] at h; simp only at h; rw [h2, h3] at h; cases h
        | some ps =>
          rw [h1] at h; simp only at h; rw [h2, h3] at h; cases h
          intro q hq
          rcases List.mem_cons.1 hq with rfl | hq
          · exact ⟨a, qs, h1, h2⟩
          · exact ih h3 q hq

theorem projected_wz {rs m : Bool} {t t' : Tree} (h : reproject rs m t = .ok t') {a n : ℕ} {lays : List LayerP} (hr : readNet t' a n = some lays) :
    ∀ p ∈ lays, ∀ i j, 0 ≤ p.wz.kernel i j := by
  intro p hp i j
  obtain ⟨k, ps, h1, h2⟩ := (readNet_mem hr).2 p hp
  exact C73_nonneg rs m t t' h (.two (layerName k) sWz) ⟨picnn_in_layerName k, Or.inl rfl⟩ p.wz (by simp [get, h1, (readLayer_wz h2).1]) i j

theorem projected_wy {rs m : Bool} {t t' : Tree} (h : reproject rs m t = .ok t') (hm : rs = true ∨ m = true) {a n : ℕ} {lays : List LayerP}
    (hr : readNet t' a n = some lays) : ∀ p ∈ lays, ∀ i j, 0 ≤ p.wy.kernel i j := by
  intro p hp i j
  obtain ⟨k, ps, h1, h2⟩ := (readNet_mem hr).2 p hp
  refine C73_nonneg rs m t t' h (.two (layerName k) sWy) ⟨picnn_in_layerName k, Or.inr ⟨rfl, ?_⟩⟩ p.wy (by simp [get, h1, (readLayer_wz h2).2]) i j
  rcases hm with h | h
  · exact Or.inl h
  · exact Or.inr (Or.inl h)

theorem apply_ok {c : Cfg} {lays : List LayerP} {xd : ℕ} {x y o : ℕ → ℝ} (h : apply c lays xd x y = .ok o) :
    shapesOk c c.lat lays.length c.lat = true ∧ o = forward c c.lat lays xd x c.lat (fun _ => 1) y := by
  unfold apply at h
  by_cases hs : shapesOk c c.lat lays.length c.lat = true
  · rw [if_pos hs] at h; cases h; exact ⟨hs, rfl⟩
  · rw [if_neg hs] at h; cases h

theorem applyProb_ok {c : Cfg} {nOut sl : ℕ} {lays sigs : List LayerP} {xd : ℕ} {x y o : ℕ → ℝ} (h : applyProb c nOut sl lays sigs xd x y = .ok o) :
    o = fun j => if j < nOut then forward c c.lat lays xd x c.lat (fun _ => 1) y j
      else softplus (forward c sl sigs xd x sl (fun _ => 0) y (j - nOut)) + (10 : ℝ)⁻¹ ^ 10 := by
  unfold applyProb at h
  cases h1 : apply c lays xd x y with
  | error e => rw [h1] at h; cases h
  | ok z =>
    rw [h1] at h
    simp only at h
    by_cases hs : shapesOk c sl sigs.length sl = true
    · rw [if_pos hs] at h
      cases h
      rw [(apply_ok h1).2]
    · rw [if_neg hs] at h; cases h

/-! ### C70: convexity -/

/-- **C70.** For every parameter dictionary after `reproject_weights`, any depth and width, and every exogenous input: each output of `PICNN` (and of
`RecStablePICNN`) is convex in the controls when no output bounds are set. -/
theorem C70_convex (rs m : Bool) (t t' : Tree) (hproj : reproject rs m t = .ok t') (n : ℕ) (lays : List LayerP) (hr : readNet t' 0 n = some lays)
    (c : Cfg) (hc : ∃ aug nOpt nx lat, c = cfgPICNN aug nOpt nx lat none ∨ c = cfgRecStable aug nOpt nx lat none)
    (xd : ℕ) (x y y' : ℕ → ℝ) (s : ℝ) (h0 : 0 ≤ s) (h1 : s ≤ 1) (o o' os : ℕ → ℝ)
    (ho : apply c lays xd x y = .ok o) (ho' : apply c lays xd x y' = .ok o') (hos : apply c lays xd x (seg s y y') = .ok os) (j : ℕ) :
    os j ≤ (1 - s) * o j + s * o' j := by
  rw [(apply_ok ho).2, (apply_ok ho').2, (apply_ok hos).2]
  have hz : c.zb = none := by obtain ⟨_, _, _, _, rfl | rfl⟩ := hc <;> rfl
  have ha : c.act = relu := by obtain ⟨_, _, _, _, rfl | rfl⟩ := hc <;> rfl
  exact forward_convex c hz (ha ▸ relu_cvxMono) c.lat lays (projected_wz hproj hr) xd x c.lat (fun _ _ => 1) (fun _ => ConvexIn.const 1) j y y' s h0 h1

/-- **C70.** Probabilistic networks: all outputs, mean and variance, are convex in the controls. -/
theorem C70_convex_probabilistic (rs m : Bool) (t t' : Tree) (hproj : reproject rs m t = .ok t') (n : ℕ) (lays sigs : List LayerP)
    (hr : readNet t' 0 n = some lays) (hr2 : readNet t' n n = some sigs)
    (c : Cfg) (hc : ∃ aug nOpt nx lat, c = cfgPICNN aug nOpt nx lat none ∨ c = cfgRecStable aug nOpt nx lat none)
    (nOut sl xd : ℕ) (x y y' : ℕ → ℝ) (s : ℝ) (h0 : 0 ≤ s) (h1 : s ≤ 1) (o o' os : ℕ → ℝ)
    (ho : applyProb c nOut sl lays sigs xd x y = .ok o) (ho' : applyProb c nOut sl lays sigs xd x y' = .ok o')
    (hos : applyProb c nOut sl lays sigs xd x (seg s y y') = .ok os) (j : ℕ) :
    os j ≤ (1 - s) * o j + s * o' j := by
  rw [applyProb_ok ho, applyProb_ok ho', applyProb_ok hos]
  have hz : c.zb = none := by obtain ⟨_, _, _, _, rfl | rfl⟩ := hc <;> rfl
  have ha : c.act = relu := by obtain ⟨_, _, _, _, rfl | rfl⟩ := hc <;> rfl
  by_cases hj : j < nOut
  · simp only [hj, if_true]
    exact forward_convex c hz (ha ▸ relu_cvxMono) c.lat lays (projected_wz hproj hr) xd x c.lat (fun _ _ => 1) (fun _ => ConvexIn.const 1) j y y' s h0 h1
  · simp only [hj, if_false]
    have := (ConvexIn.comp softplus_cvxMono (forward_convex c hz (ha ▸ relu_cvxMono) sl sigs (projected_wz hproj hr2) xd x sl (fun _ _ => 0)
      (fun _ => ConvexIn.const 0) (j - nOut))).add (ConvexIn.const ((10 : ℝ)⁻¹ ^ 10))
    exact this y y' s h0 h1

/-- **C70.** The variance output is strictly positive, for every input and every weights. -/
theorem C70_variance_pos (c : Cfg) (nOut sl : ℕ) (lays sigs : List LayerP) (xd : ℕ) (x y o : ℕ → ℝ)
    (ho : applyProb c nOut sl lays sigs xd x y = .ok o) (j : ℕ) (hj : nOut ≤ j) : 0 < o j := by
  rw [applyProb_ok ho]
  simp only [not_lt.2 hj, if_false]
  have h1 : 0 ≤ softplus (forward c sl sigs xd x sl (fun _ => 0) y (j - nOut)) := by
    unfold softplus
    apply Real.log_nonneg
    have := Real.exp_pos (forward c sl sigs xd x sl (fun _ => 0) y (j - nOut))
    linarith
  have : (0 : ℝ) < (10 : ℝ)⁻¹ ^ 10 := by positivity
  linarith

/-- **C70.** With output bounds `z_min ≤ z_max` the outputs are only quasi-convex in the controls, and they lie strictly between the bounds. -/
theorem C70_bounds_quasiconvex (rs m : Bool) (t t' : Tree) (hproj : reproject rs m t = .ok t') (n : ℕ) (hn : 0 < n) (lays : List LayerP)
    (hr : readNet t' 0 n = some lays) (aug : Bool) (nOpt nx lat : ℕ) (lo hi : ℝ) (hlh : lo < hi)
    (xd : ℕ) (x y y' : ℕ → ℝ) (s : ℝ) (h0 : 0 ≤ s) (h1 : s ≤ 1) (o o' os : ℕ → ℝ)
    (ho : apply (cfgPICNN aug nOpt nx lat (some (lo, hi))) lays xd x y = .ok o) (ho' : apply (cfgPICNN aug nOpt nx lat (some (lo, hi))) lays xd x y' = .ok o')
    (hos : apply (cfgPICNN aug nOpt nx lat (some (lo, hi))) lays xd x (seg s y y') = .ok os) (j : ℕ) :
    os j ≤ max (o j) (o' j) ∧ lo < o j ∧ o j < hi := by
  have hne : lays ≠ [] := by
    intro h
    have := (readNet_mem hr).1
    rw [h] at this
    simp at this
    omega
  rw [(apply_ok ho).2, (apply_ok ho').2, (apply_ok hos).2]
  have hq := QuasiConvexIn.comp (g := bound (some (lo, hi))) (bound_mono _ (fun a b h => by cases h; exact hlh.le))
    (forward_convex (cfgPICNN aug nOpt nx lat none) rfl relu_cvxMono lat lays (projected_wz hproj hr) xd x lat (fun _ _ => 1)
      (fun _ => ConvexIn.const 1) j).quasi
  have hfb := fun y => forward_bound (cfgPICNN aug nOpt nx lat (some (lo, hi))) lat lays hne xd x lat (fun _ => 1) y j
  refine ⟨?_, ?_, ?_⟩
  · show forward _ lat _ _ _ lat _ _ _ ≤ max (forward _ lat _ _ _ lat _ _ _) (forward _ lat _ _ _ lat _ _ _)
    rw [hfb, hfb, hfb]
    exact hq y y' s h0 h1
  · show lo < forward _ lat _ _ _ lat _ _ _
    rw [hfb]
    show lo < Real.sigmoid _ * (hi - lo) + lo
    have := mul_pos (Real.sigmoid_pos (forward { cfgPICNN aug nOpt nx lat (some (lo, hi)) with zb := none } lat lays xd x lat (fun _ => 1) y j)) (sub_pos.2 hlh)
    linarith
  · show forward _ lat _ _ _ lat _ _ _ < hi
    rw [hfb]
    show Real.sigmoid _ * (hi - lo) + lo < hi
    have := mul_lt_mul_of_pos_right (Real.sigmoid_lt_one (forward { cfgPICNN aug nOpt nx lat (some (lo, hi)) with zb := none } lat lays xd x lat (fun _ => 1) y j)) (sub_pos.2 hlh)
    linarith

/-! ### C71: monotonicity -/

/-- **C71.** `PIQCNNSigmoid` and `StructuredPICNN` (projection with `monotone=True`, no augmentation, bounds in order): raising controls never lowers any
output, mean or variance. -/
theorem C71_monotone (rs : Bool) (t t' : Tree) (hproj : reproject rs true t = .ok t') (n : ℕ) (lays : List LayerP)
    (hr : readNet t' 0 n = some lays) (nOpt nx lat : ℕ) (zb : Option (ℝ × ℝ)) (hzb : ∀ lo hi, zb = some (lo, hi) → lo ≤ hi)
    (xd : ℕ) (x y y' : ℕ → ℝ) (hy : ∀ i, y i ≤ y' i) (o o' : ℕ → ℝ)
    (ho : apply (cfgSigmoid false nOpt nx lat zb) lays xd x y = .ok o) (ho' : apply (cfgSigmoid false nOpt nx lat zb) lays xd x y' = .ok o') (j : ℕ) :
    o j ≤ o' j := by
  rw [(apply_ok ho).2, (apply_ok ho').2]
  exact forward_monotone (cfgSigmoid false nOpt nx lat zb) rfl Real.sigmoid_nonneg Real.sigmoid_monotone hzb lat lays (projected_wz hproj hr)
    (projected_wy hproj (Or.inr rfl) hr) xd x lat (fun _ _ => 1) (fun _ _ _ _ => le_rfl) j y y' hy

/-- **C71.** The same for the probabilistic networks. -/
theorem C71_monotone_probabilistic (rs : Bool) (t t' : Tree) (hproj : reproject rs true t = .ok t') (n : ℕ) (lays sigs : List LayerP)
    (hr : readNet t' 0 n = some lays) (hr2 : readNet t' n n = some sigs) (nOpt nx lat nOut sl : ℕ) (zb : Option (ℝ × ℝ))
    (hzb : ∀ lo hi, zb = some (lo, hi) → lo ≤ hi)
    (xd : ℕ) (x y y' : ℕ → ℝ) (hy : ∀ i, y i ≤ y' i) (o o' : ℕ → ℝ)
    (ho : applyProb (cfgSigmoid false nOpt nx lat zb) nOut sl lays sigs xd x y = .ok o)
    (ho' : applyProb (cfgSigmoid false nOpt nx lat zb) nOut sl lays sigs xd x y' = .ok o') (j : ℕ) :
    o j ≤ o' j := by
  rw [applyProb_ok ho, applyProb_ok ho']
  by_cases hj : j < nOut
  · simp only [hj, if_true]
    exact forward_monotone (cfgSigmoid false nOpt nx lat zb) rfl Real.sigmoid_nonneg Real.sigmoid_monotone hzb lat lays (projected_wz hproj hr)
      (projected_wy hproj (Or.inr rfl) hr) xd x lat (fun _ _ => 1) (fun _ _ _ _ => le_rfl) j y y' hy
  · simp only [hj, if_false]
    have := softplus_cvxMono.1 (forward_monotone (cfgSigmoid false nOpt nx lat zb) rfl Real.sigmoid_nonneg Real.sigmoid_monotone hzb sl sigs
      (projected_wz hproj hr2) (projected_wy hproj (Or.inr rfl) hr2) xd x sl (fun _ _ => 0) (fun _ _ _ _ => le_rfl) (j - nOut) y y' hy)
    linarith

/-- The decoder module of `LatentPICNN_module`, ICNN.py L201-204 (relu, relu). -/
noncomputable def cfgDecoder (nEmb nx lat : ℕ) (zb : Option (ℝ × ℝ)) : Cfg := ⟨relu, relu, false, nEmb, nEmb, nx, lat, zb⟩

/-- **C71.** The decoder of the latent network is monotone in the embedding: its module name carries "monotone", so its `wy` weights are projected even
though the class itself is not monotone. -/
theorem C71_decoder_monotone (rs m : Bool) (t t' : Tree) (hproj : reproject rs m t = .ok t') (ls : List (Name × LayerPars))
    (hdec : t'.lookup "PICNNLayer_decoder_monotone".toList = some (.sub ls)) (n : ℕ) (lays : List LayerP) (hr : readSubNet ls 0 n = some lays)
    (nEmb nx lat : ℕ) (zb : Option (ℝ × ℝ)) (hzb : ∀ lo hi, zb = some (lo, hi) → lo ≤ hi)
    (xd : ℕ) (x e e' : ℕ → ℝ) (he : ∀ i, e i ≤ e' i) (o o' : ℕ → ℝ)
    (ho : apply (cfgDecoder nEmb nx lat zb) lays xd x e = .ok o) (ho' : apply (cfgDecoder nEmb nx lat zb) lays xd x e' = .ok o') (j : ℕ) :
    o j ≤ o' j := by
  rw [(apply_ok ho).2, (apply_ok ho').2]
  have hP : sPicnn <:+: "PICNNLayer_decoder_monotone".toList := by decide
  have hM : sMonotone <:+: "PICNNLayer_decoder_monotone".toList := by decide
  have hwz : ∀ p ∈ lays, ∀ i j, 0 ≤ p.wz.kernel i j := by
    intro p hp i j
    obtain ⟨k, ps, h1, h2⟩ := readSubNet_mem hr p hp
    exact C73_nonneg rs m t t' hproj (.three "PICNNLayer_decoder_monotone".toList (layerName k) sWz) ⟨hP, Or.inl rfl⟩ p.wz
      (by simp only [get, hdec, h1, (readLayer_wz h2).1]) i j
  have hwy : ∀ p ∈ lays, ∀ i j, 0 ≤ p.wy.kernel i j := by
    intro p hp i j
    obtain ⟨k, ps, h1, h2⟩ := readSubNet_mem hr p hp
    exact C73_nonneg rs m t t' hproj (.three "PICNNLayer_decoder_monotone".toList (layerName k) sWy)
      ⟨hP, Or.inr ⟨rfl, Or.inr (Or.inr (Or.inl hM))⟩⟩ p.wy (by simp only [get, hdec, h1, (readLayer_wz h2).2]) i j
  exact forward_monotone (cfgDecoder nEmb nx lat zb) rfl relu_nonneg relu_cvxMono.1 hzb lat lays hwz hwy xd x lat (fun _ _ => 1)
    (fun _ _ _ _ => le_rfl) j e e' he

/-! ### C115: shapes -/

theorem compat_self (a : ℕ) : compat a a = true := by simp [compat]

theorem shapesOk_iff (c : Cfg) (hid n : ℕ) : shapesOk c hid n hid = true ↔ n = 0 ∨ (compat hid c.lat = true ∧ compat (yDim c) c.ny = true) := by
  induction n with
  | zero => simp [shapesOk]
  | succ n ih =>
    simp only [shapesOk, Bool.and_eq_true, ih]
    constructor
    · rintro ⟨h, _⟩; exact Or.inr h
    · rintro (h | h)
      · omega
      · exact ⟨h, Or.inr h⟩

/-- **C115.** `PICNN` (and the sigmoid networks) evaluate for every number of controls, width, depth, with or without augmentation. -/
theorem C115_point_evaluates (aug : Bool) (nOpt nx lat : ℕ) (zb : Option (ℝ × ℝ)) (lays : List LayerP) (xd : ℕ) (x y : ℕ → ℝ) :
    (∃ o, apply (cfgPICNN aug nOpt nx lat zb) lays xd x y = .ok o) ∧ (∃ o, apply (cfgSigmoid aug nOpt nx lat zb) lays xd x y = .ok o) := by
  constructor
  · have : shapesOk (cfgPICNN aug nOpt nx lat zb) lat lays.length lat = true := by
      rw [shapesOk_iff]
      right
      refine ⟨compat_self lat, ?_⟩
      show compat (yDim (cfgPICNN aug nOpt nx lat zb)) (hiddenY aug nOpt) = true
      cases aug <;> exact compat_self _
    exact ⟨_, by unfold apply; exact if_pos this⟩
  · have : shapesOk (cfgSigmoid aug nOpt nx lat zb) lat lays.length lat = true := by
      rw [shapesOk_iff]
      right
      refine ⟨compat_self lat, ?_⟩
      show compat (yDim (cfgSigmoid aug nOpt nx lat zb)) (hiddenY aug nOpt) = true
      cases aug <;> exact compat_self _
    exact ⟨_, by unfold apply; exact if_pos this⟩

/-- **C115.** Defect: `RecStablePICNN` does not pass `augment_ctrl_inputs` on, so with the option set it cannot be evaluated as soon as there are two control
variables (TypeError), for any weights; with at most one control it evaluates but without augmentation. -/
theorem C115_recstable_augment (nOpt nx lat : ℕ) (zb : Option (ℝ × ℝ)) (lays : List LayerP) (hne : lays ≠ []) (xd : ℕ) (x y : ℕ → ℝ) :
    (∃ o, apply (cfgRecStable true nOpt nx lat zb) lays xd x y = .ok o) ↔ nOpt ≤ 1 := by
  have hl : lays.length ≠ 0 := by simpa using hne
  have hs : shapesOk (cfgRecStable true nOpt nx lat zb) lat lays.length lat = true ↔ nOpt ≤ 1 := by
    rw [shapesOk_iff, or_iff_right hl]
    have : compat lat (cfgRecStable true nOpt nx lat zb).lat = true := compat_self lat
    rw [and_iff_right this]
    show compat nOpt (2 * nOpt) = true ↔ nOpt ≤ 1
    simp only [compat, Bool.or_eq_true, beq_iff_eq]
    omega
  constructor
  · rintro ⟨o, ho⟩
    exact hs.1 (apply_ok ho).1
  · intro h
    exact ⟨_, by unfold apply; exact if_pos (hs.2 h)⟩

/-- **C115.** Defect: a probabilistic network evaluates only if the latent width is one, or there is one variance output, or the two numbers agree. -/
theorem C115_probabilistic (aug : Bool) (nOpt nx lat nOut sl : ℕ) (zb : Option (ℝ × ℝ)) (lays sigs : List LayerP) (hne : sigs ≠ []) (xd : ℕ) (x y : ℕ → ℝ) :
    (∃ o, applyProb (cfgPICNN aug nOpt nx lat zb) nOut sl lays sigs xd x y = .ok o) ↔ (sl = lat ∨ sl = 1 ∨ lat = 1) := by
  have hl : sigs.length ≠ 0 := by simpa using hne
  obtain ⟨z, hz⟩ := (C115_point_evaluates aug nOpt nx lat zb lays xd x y).1
  have hs : shapesOk (cfgPICNN aug nOpt nx lat zb) sl sigs.length sl = true ↔ (sl = lat ∨ sl = 1 ∨ lat = 1) := by
    rw [shapesOk_iff, or_iff_right hl]
    have : compat (yDim (cfgPICNN aug nOpt nx lat zb)) (cfgPICNN aug nOpt nx lat zb).ny = true := by
      show compat (yDim (cfgPICNN aug nOpt nx lat zb)) (hiddenY aug nOpt) = true
      cases aug <;> exact compat_self _
    rw [and_iff_left this]
    show compat sl lat = true ↔ _
    simp only [compat, Bool.or_eq_true, beq_iff_eq, or_assoc]
  unfold applyProb
  rw [hz, ← hs]
  simp only
  by_cases h : shapesOk (cfgPICNN aug nOpt nx lat zb) sl sigs.length sl = true
  · rw [if_pos h]; simp [h]
  · rw [if_neg h]; simp [h]

end PyF.ICNN
