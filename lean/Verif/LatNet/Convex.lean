import Verif.LatNet.Props

/-! C325: in what the three networks of the latent network are convex. -/

namespace PyF.LatNet

open PyF PyF.ICNN

theorem sub_wz {rs m : Bool} {t t' : Tree} (hproj : reproject rs m t = .ok t') {nm : Name} (hP : sPicnn <:+: nm) {ls : List (Name × LayerPars)}
    (hl : t'.lookup nm = some (.sub ls)) {n : ℕ} {lays : List LayerP} (hr : readSubNet ls 0 n = some lays) : ∀ p ∈ lays, ∀ i j, 0 ≤ p.wz.kernel i j := by
  intro p hp i j
  obtain ⟨k, ps, h1, h2⟩ := readSubNet_mem hr p hp
  exact C73_nonneg rs m t t' hproj (.three nm (layerName k) sWz) ⟨hP, Or.inl rfl⟩ p.wz (by simp only [ICNN.get, hl, h1, (readLayer_wz h2).1]) i j

theorem apply_convex (c : Cfg) (hz : c.zb = none) (ha : c.act = relu) (hd : yDim c = c.ny) {lays : List LayerP} (hw : ∀ p ∈ lays, ∀ i j, 0 ≤ p.wz.kernel i j)
    (xd : ℕ) (x y y' : ℕ → ℝ) (s : ℝ) (h0 : 0 ≤ s) (h1 : s ≤ 1) :
    ∃ o o' os, apply c lays xd x y = .ok o ∧ apply c lays xd x y' = .ok o' ∧ apply c lays xd x (seg s y y') = .ok os ∧ ∀ j, os j ≤ (1 - s) * o j + s * o' j := by
  obtain ⟨o, ho⟩ := apply_total c hd lays xd x y
  obtain ⟨o', ho'⟩ := apply_total c hd lays xd x y'
  obtain ⟨os, hos⟩ := apply_total c hd lays xd x (seg s y y')
  refine ⟨o, o', os, ho, ho', hos, fun j => ?_⟩
  rw [(apply_ok ho).2, (apply_ok ho').2, (apply_ok hos).2]
  exact forward_convex c hz (ha ▸ relu_cvxMono) c.lat lays hw xd x c.lat (fun _ _ => 1) (fun _ => ConvexIn.const 1) j y y' s h0 h1

theorem apply_quasi (c : Cfg) (lo hi : ℝ) (hlh : lo < hi) (hz : c.zb = some (lo, hi)) (ha : c.act = relu) (hd : yDim c = c.ny) {lays : List LayerP} (hne : lays ≠ [])
    (hw : ∀ p ∈ lays, ∀ i j, 0 ≤ p.wz.kernel i j) (xd : ℕ) (x y y' : ℕ → ℝ) (s : ℝ) (h0 : 0 ≤ s) (h1 : s ≤ 1) :
    ∃ o o' os, apply c lays xd x y = .ok o ∧ apply c lays xd x y' = .ok o' ∧ apply c lays xd x (seg s y y') = .ok os ∧ ∀ j, os j ≤ max (o j) (o' j) := by
  obtain ⟨o, ho⟩ := apply_total c hd lays xd x y
  obtain ⟨o', ho'⟩ := apply_total c hd lays xd x y'
  obtain ⟨os, hos⟩ := apply_total c hd lays xd x (seg s y y')
  refine ⟨o, o', os, ho, ho', hos, fun j => ?_⟩
  rw [(apply_ok ho).2, (apply_ok ho').2, (apply_ok hos).2]
  have hq := QuasiConvexIn.comp (g := bound (some (lo, hi))) (bound_mono _ (fun a b h => by cases h; exact hlh.le))
    (forward_convex { c with zb := none } rfl (ha ▸ relu_cvxMono) c.lat lays hw xd x c.lat (fun _ _ => 1) (fun _ => ConvexIn.const 1) j).quasi
  have hfb := fun y => forward_bound c c.lat lays hne xd x c.lat (fun _ => 1) y j
  rw [hz] at hfb
  rw [hfb, hfb, hfb]
  exact hq y y' s h0 h1

/-- The layers of the latent network in a parameter dictionary, ICNN.py L196-210. -/
def ReadFrom (t : Tree) (ne nd np : ℕ) (l : Layers) : Prop :=
  (∃ ls, t.lookup "PICNNLayer_encoder".toList = some (.sub ls) ∧ readSubNet ls 0 ne = some l.enc) ∧
  (∃ ls, t.lookup "PICNNLayer_decoder_monotone".toList = some (.sub ls) ∧ readSubNet ls 0 nd = some l.dec) ∧
  ∃ ls, t.lookup "PICNNLayer_picnn".toList = some (.sub ls) ∧ readSubNet ls 0 np = some l.pred

/-- C325: `LatentStructuredPICNN` without bounds, after `reproject_weights`, for any depths and widths and any exogenous input: the embedding is convex in the controls, the
forecasts are convex in the embedding, and the controls reconstructed from an embedding are convex in it. -/
theorem C325_convex (rs m : Bool) (t t' : Tree) (hproj : reproject rs m t = .ok t') (ne nd np : ℕ) (l : Layers) (hl : ReadFrom t' ne nd np l) (a : Args)
    (xd : ℕ) (x y y' : ℕ → ℝ) (s : ℝ) (h0 : 0 ≤ s) (h1 : s ≤ 1) :
    (∃ e e' es, apply (cfgEnc a none) l.enc xd x y = .ok e ∧ apply (cfgEnc a none) l.enc xd x y' = .ok e' ∧ apply (cfgEnc a none) l.enc xd x (seg s y y') = .ok es ∧
      ∀ j, es j ≤ (1 - s) * e j + s * e' j) ∧
    (∃ z z' zs, apply (cfgPred a none) l.pred xd x y = .ok z ∧ apply (cfgPred a none) l.pred xd x y' = .ok z' ∧ apply (cfgPred a none) l.pred xd x (seg s y y') = .ok zs ∧
      ∀ j, zs j ≤ (1 - s) * z j + s * z' j) ∧
    ∃ r r' rs', decode a none l xd x y = .ok r ∧ decode a none l xd x y' = .ok r' ∧ decode a none l xd x (seg s y y') = .ok rs' ∧
      ∀ j, rs' j ≤ (1 - s) * r j + s * r' j := by
  obtain ⟨⟨l1, a1, b1⟩, ⟨l2, a2, b2⟩, l3, a3, b3⟩ := hl
  exact ⟨apply_convex _ rfl rfl (ydEnc a none) (sub_wz hproj (by decide) a1 b1) xd x y y' s h0 h1,
    apply_convex _ rfl rfl (ydPred a none) (sub_wz hproj (by decide) a3 b3) xd x y y' s h0 h1,
    apply_convex _ rfl rfl (ydDec a none) (sub_wz hproj (by decide) a2 b2) xd x y y' s h0 h1⟩

/-- C325 (search for embeddings): a cost that is a non-negative combination of the forecasts is convex in the embedding, so an embedding that is best among those
nearby is best of all. -/
theorem C325_no_local_minima (rs m : Bool) (t t' : Tree) (hproj : reproject rs m t = .ok t') (ne nd np : ℕ) (l : Layers) (hl : ReadFrom t' ne nd np l) (a : Args)
    (xd : ℕ) (x : ℕ → ℝ) (w : ℕ → ℝ) (hw : ∀ j, 0 ≤ w j) (n : ℕ) (J : (ℕ → ℝ) → ℝ)
    (hJ : ∀ e z, apply (cfgPred a none) l.pred xd x e = .ok z → J e = ∑ j ∈ Finset.range n, w j * z j)
    (e : ℕ → ℝ) (r : ℝ) (hr : 0 < r) (hloc : ∀ e', (∀ i, |e' i - e i| ≤ r) → J e ≤ J e') (e' : ℕ → ℝ) (M : ℝ) (hM : ∀ i, |e' i - e i| ≤ M) : J e ≤ J e' := by
  have hMr : 0 < max M r := lt_max_of_lt_right hr
  obtain ⟨-, ⟨z, z', zs, hz, hz', hzs, hc⟩, -⟩ := C325_convex rs m t t' hproj ne nd np l hl a xd x e e' (r / max M r) (by positivity)
    ((div_le_one hMr).2 (le_max_right _ _))
  set s := r / max M r with hs
  have hs0 : 0 < s := by positivity
  have h1 : J e ≤ J (seg s e e') := hloc _ (fun i => by
    have h2 : seg s e e' i - e i = s * (e' i - e i) := by unfold seg; ring
    rw [h2, abs_mul, abs_of_pos hs0]
    have h3 : |e' i - e i| ≤ max M r := (hM i).trans (le_max_left _ _)
    calc s * |e' i - e i| ≤ s * max M r := mul_le_mul_of_nonneg_left h3 hs0.le
      _ = r := by rw [hs]; field_simp)
  have h2 : J (seg s e e') ≤ (1 - s) * J e + s * J e' := by
    rw [hJ _ _ hz, hJ _ _ hz', hJ _ _ hzs, Finset.mul_sum, Finset.mul_sum, ← Finset.sum_add_distrib]
    refine Finset.sum_le_sum fun j _ => ?_
    have := mul_le_mul_of_nonneg_left (hc j) (hw j)
    linarith
  have h3 : s * J e ≤ s * J e' := by linarith
  exact le_of_mul_le_mul_left h3 hs0

/-- C325 (bounds): with bounds the embedding in the controls, the forecasts in the embedding and the reconstructed controls in the embedding are only quasi-convex: between two points
none exceeds the larger of the two values. -/
theorem C325_bounds (rs m : Bool) (t t' : Tree) (hproj : reproject rs m t = .ok t') (ne nd np : ℕ) (l : Layers) (hl : ReadFrom t' ne nd np l)
    (h1e : l.enc ≠ []) (h1d : l.dec ≠ []) (h1p : l.pred ≠ []) (a : Args) (lo hi : ℝ) (hlh : lo < hi)
    (xd : ℕ) (x y y' : ℕ → ℝ) (s : ℝ) (h0 : 0 ≤ s) (h1 : s ≤ 1) :
    (∃ e e' es, apply (cfgEnc a (some (lo, hi))) l.enc xd x y = .ok e ∧ apply (cfgEnc a (some (lo, hi))) l.enc xd x y' = .ok e' ∧
      apply (cfgEnc a (some (lo, hi))) l.enc xd x (seg s y y') = .ok es ∧ ∀ j, es j ≤ max (e j) (e' j)) ∧
    (∃ z z' zs, apply (cfgPred a (some (lo, hi))) l.pred xd x y = .ok z ∧ apply (cfgPred a (some (lo, hi))) l.pred xd x y' = .ok z' ∧
      apply (cfgPred a (some (lo, hi))) l.pred xd x (seg s y y') = .ok zs ∧ ∀ j, zs j ≤ max (z j) (z' j)) ∧
    ∃ r r' rs', decode a (some (lo, hi)) l xd x y = .ok r ∧ decode a (some (lo, hi)) l xd x y' = .ok r' ∧ decode a (some (lo, hi)) l xd x (seg s y y') = .ok rs' ∧
      ∀ j, rs' j ≤ max (r j) (r' j) := by
  obtain ⟨⟨l1, a1, b1⟩, ⟨l2, a2, b2⟩, l3, a3, b3⟩ := hl
  exact ⟨apply_quasi _ lo hi hlh rfl rfl (ydEnc a _) h1e (sub_wz hproj (by decide) a1 b1) xd x y y' s h0 h1,
    apply_quasi _ lo hi hlh rfl rfl (ydPred a _) h1p (sub_wz hproj (by decide) a3 b3) xd x y y' s h0 h1,
    apply_quasi _ lo hi hlh rfl rfl (ydDec a _) h1d (sub_wz hproj (by decide) a2 b2) xd x y y' s h0 h1⟩

end PyF.LatNet
