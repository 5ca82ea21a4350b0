import Verif.ICNN.Props

/-!
C115 (layer): the value inside a `PICNNLayer` when the shapes agree, and when the first operand has one column.
-/

namespace PyF.ICNN

open PyF

/-- C115 (layer): with `z` as wide as the gate and the controls as wide as theirs, the value is the gated sum over all entries; a `z` or a control vector of one column is
multiplied with every gate. -/
theorem C115_layer_value (c : Cfg) (p : LayerP) (nu : ℕ) (u : ℕ → ℝ) (dz : ℕ) (z y : ℕ → ℝ) (j : ℕ) (hz : dz = c.lat ∨ dz = 1) (hy : yDim c = c.ny ∨ yDim c = 1) :
    pre c p nu u dz z y j =
      (∑ i ∈ Finset.range c.lat, z (if dz = 1 then 0 else i) * relu (dense nu p.wzu u i) * p.wz.kernel i j)
      + (∑ i ∈ Finset.range c.ny, augY c y (if yDim c = 1 then 0 else i) * c.recAct (dense nu p.wyu u i) * p.wy.kernel i j)
      + dense nu p.wuz u j := by
  have key : ∀ (a b : ℕ) (f g : ℕ → ℝ) (d : Dense), (a = b ∨ a = 1) →
      denseNoBias (bdim a b) d (fun i => f (bidx a i) * g (bidx b i)) j = ∑ i ∈ Finset.range b, f (if a = 1 then 0 else i) * g i * d.kernel i j := by
    intro a b f g d h
    have hb : bdim a b = b := by
      unfold bdim
      rcases h with h | h
      · rw [h]; split <;> simp_all
      · rw [if_pos h]
    unfold denseNoBias
    rw [hb]
    refine Finset.sum_congr rfl fun i hi => ?_
    have hi' := Finset.mem_range.mp hi
    have : bidx b i = i := by
      unfold bidx
      split
      · omega
      · rfl
    show f (bidx a i) * g (bidx b i) * d.kernel i j = _
    rw [this]
    rfl
  unfold pre
  rw [key dz c.lat z (fun i => relu (dense nu p.wzu u i)) p.wz hz, key (yDim c) c.ny (augY c y) (fun i => c.recAct (dense nu p.wyu u i)) p.wy hy]

/-- One column of `z` and three gates: every gate is multiplied with it. -/
example (p : LayerP) (u z y : ℕ → ℝ) : pre (cfgPICNN false 2 5 3 none) p 4 u 1 z y 0 =
    (∑ i ∈ Finset.range 3, z 0 * relu (dense 4 p.wzu u i) * p.wz.kernel i 0)
    + (∑ i ∈ Finset.range 2, y i * (cfgPICNN false 2 5 3 none).recAct (dense 4 p.wyu u i) * p.wy.kernel i 0) + dense 4 p.wuz u 0 := by
  rw [C115_layer_value _ _ _ _ _ _ _ _ (Or.inr rfl) (Or.inl rfl)]
  simp [cfgPICNN, augY, yDim, hiddenY]

end PyF.ICNN
