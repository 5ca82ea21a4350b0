import Verif.InnLoss.Model
import Verif.INN.Props
import Verif.Losses.Props2
import Mathlib.Analysis.SpecialFunctions.Trigonometric.DerivHyp

/-! Properties C241-C243. -/

namespace PyF.InnLoss

open PyF PyF.INN Finset

variable {B : ℕ}

/-! ### The quasi end-to-end loss -/

/-- The embedded target is the one C126 speaks about: the exogenous columns at the front do not disturb the shifted window. -/
theorem targetRow_eq (N : Net) (n : ℕ) (hn : n ≤ N.m) (row y : ℕ → ℝ) :
    N.targetRow n row y = targetEmbedding N.s N.m n N.layers (N.endogenous row) y := by
  have h : N.endogenous (N.future n row y) = shiftIn N.m n (N.endogenous row) y := by
    funext i
    unfold Net.endogenous Net.future shiftIn
    by_cases hi : i < N.m - n
    · rw [if_pos hi, if_pos (by omega)]
      congr 1
      omega
    · rw [if_neg hi, if_neg (by omega)]
      congr 1
      omega
  unfold Net.targetRow targetEmbedding Net.embed
  rw [h]

/-- **C241.** With exogenous columns in front, the targets are embedded in the window of the endogenous history that ends with them: entry `j` is
entry `m - n + j` of the embedding of the last `m - n` values of the history followed by the targets. -/
theorem C241_window (N : Net) (n : ℕ) (hn : n ≤ N.m) (row y : ℕ → ℝ) (j : ℕ) :
    N.targetRow n row y j =
      INN.embed N.s N.m N.layers (fun i => if i + n < N.m then row (N.ex + n + i) else y (i + n - N.m)) (N.m - n + j) := by
  rw [targetRow_eq N n hn]
  unfold targetEmbedding lastN
  congr 1
  funext i
  unfold shiftIn Net.endogenous
  by_cases hi : i + n < N.m
  · rw [if_pos hi, if_pos (by omega)]
    congr 1
    omega
  · rw [if_neg hi, if_neg (by omega)]
    congr 1
    omega

theorem roll_zero {h : ℕ} (e : Fin B → Fin (h + 1) → ℝ) (i : Fin B) : roll e i 0 = e i (Fin.last h) := by
  simp [roll, Fin.last]

theorem roll_succ {h : ℕ} (e : Fin B → Fin (h + 1) → ℝ) (i : Fin B) (j : Fin h) : roll e i j.succ = e i j.castSucc := by
  simp [roll, Fin.castSucc, Fin.castAdd, Fin.castLE]

/-- **C241.** The baseline of the skill score is one-step persistence over the horizon, except for the first step, which is compared with the
last step of the same horizon. -/
theorem C241_baseline {h : ℕ} (e : Fin B → Fin (h + 1) → ℝ) :
    Losses.mse e (roll e) =
      (∑ i, ((e i 0 - e i (Fin.last h)) ^ 2 + ∑ j : Fin h, (e i j.succ - e i j.castSucc) ^ 2)) / (B * (h + 1)) := by
  unfold Losses.mse
  push_cast
  congr 1
  apply sum_congr rfl
  intro i _
  rw [Fin.sum_univ_succ, roll_zero, sum_congr rfl (fun j _ => by rw [roll_succ])]

theorem roll_fixed {n : ℕ} (e : Fin B → Fin n → ℝ) : e = roll e ↔ ∀ i j j', e i j = e i j' := by
  constructor
  · intro h i
    cases n with
    | zero => intro j; exact j.elim0
    | succ h' =>
      have key : ∀ k (hk : k < h' + 1), e i ⟨k, hk⟩ = e i 0 := by
        intro k
        induction k with
        | zero => intro _; rfl
        | succ k ih =>
          intro hk
          have h2 := congrFun (congrFun h i) ⟨k + 1, hk⟩
          have h3 := roll_succ e i ⟨k, by omega⟩
          rw [← ih (by omega)]
          exact h2.trans h3
      intro j j'
      exact (key j j.isLt).trans (key j' j'.isLt).symm
  · intro h
    funext i j
    unfold roll
    split <;> exact h _ _ _

/-- **C241.** The quasi end-to-end loss is infinite or NaN exactly if in every row of the batch the embedded targets are the same at all steps. -/
theorem C241_undefined_iff {n : ℕ} (hB : 1 ≤ B) (hn : 1 ≤ n) (N : Net) (rows : Fin B → ℕ → ℝ) (y : Fin B → Fin n → ℝ) :
    quasiLoss N rows y = none ↔ ∀ i j j', targetTable N rows y i j = targetTable N rows y i j' := by
  unfold quasiLoss skillScore
  rw [← roll_fixed, ← Losses.mse_zero hB hn]
  split
  · rename_i h; exact ⟨fun _ => h, fun _ => rfl⟩
  · rename_i h; exact ⟨fun h2 => absurd h2 (by simp), fun h2 => absurd h2 h⟩

/-- **C241.** Defect: with a single target the loss is never finite, whatever the network and the data: such a model cannot be trained. -/
theorem C241_one_target (N : Net) (rows : Fin B → ℕ → ℝ) (y : Fin B → Fin 1 → ℝ) : quasiLoss N rows y = none := by
  unfold quasiLoss skillScore
  rw [if_pos]
  have h : roll (targetTable N rows y) = targetTable N rows y := ((roll_fixed _).2 (fun i j j' => by rw [Subsingleton.elim j j'])).symm
  rw [h]
  simp [Losses.mse]

/-- **C241.** A finite loss is nonnegative, and zero exactly if the forecast embedding is the embedding of the targets. -/
theorem C241_zero_iff {n : ℕ} (hB : 1 ≤ B) (hn : 1 ≤ n) (N : Net) (rows : Fin B → ℕ → ℝ) (y : Fin B → Fin n → ℝ) (r : ℝ) (h : quasiLoss N rows y = some r) :
    0 ≤ r ∧ (r = 0 ↔ ∀ i, ∀ j : Fin n, N.call (rows i) j = N.targetRow n (rows i) (wide (y i)) j) := by
  unfold quasiLoss skillScore at h
  split at h
  · exact absurd h (by simp)
  · rename_i hd
    have h2 := Option.some.inj h
    have hp : 0 < Losses.mse (targetTable N rows y) (roll (targetTable N rows y)) := lt_of_le_of_ne (Losses.mse_nonneg _ _) (Ne.symm hd)
    rw [← h2]
    refine ⟨div_nonneg (Losses.mse_nonneg _ _) hp.le, ?_⟩
    rw [div_eq_zero_iff, or_iff_left hd, Losses.mse_zero hB hn]
    constructor
    · intro h3 i j
      exact (congrFun (congrFun h3 i) j).symm
    · intro h3
      funext i j
      exact (h3 i j).symm

theorem mse_affine {n : ℕ} (a : ℝ) (b : Fin B → ℝ) (e f : Fin B → Fin n → ℝ) :
    Losses.mse (fun i j => a * e i j + b i) (fun i j => a * f i j + b i) = a ^ 2 * Losses.mse e f := by
  unfold Losses.mse
  rw [mul_div_assoc', mul_sum]
  congr 1
  apply sum_congr rfl
  intro i _
  rw [mul_sum]
  apply sum_congr rfl
  intro j _
  ring

/-- **C241.** The loss does not see the scale of the embedding, nor an offset of a row: scaling targets and forecasts in the embedded space by the
same nonzero factor and shifting them row by row leaves it unchanged. -/
theorem C241_scale {n : ℕ} (a : ℝ) (ha : a ≠ 0) (b : Fin B → ℝ) (e eHat : Fin B → Fin n → ℝ) :
    skillScore (fun i j => a * e i j + b i) (fun i j => a * eHat i j + b i) = skillScore e eHat := by
  have h : roll (fun i j => a * e i j + b i) = fun i j => a * roll e i j + b i := by
    funext i j
    unfold roll
    split <;> rfl
  have ha2 : a ^ 2 ≠ 0 := pow_ne_zero 2 ha
  unfold skillScore
  rw [h, mse_affine, mse_affine, mul_div_mul_left _ _ ha2]
  simp [ha2]

/-! ### Losses and forecasts served -/

/-- **C242.** Full end-to-end training: the loss is the mean squared error of the forecasts `predict` returns for the batch. It is nonnegative, and
zero exactly if all of them equal the targets. -/
theorem C242_full {n : ℕ} (hB : 1 ≤ B) (hn : 1 ≤ n) (N : Net) (rows : Fin B → ℕ → ℝ) (y : Fin B → Fin n → ℝ) :
    fullLoss N rows y = (∑ i, ∑ j : Fin n, (y i j - N.serve n (rows i) j) ^ 2) / (B * n) ∧
    0 ≤ fullLoss N rows y ∧ (fullLoss N rows y = 0 ↔ ∀ i, ∀ j : Fin n, N.serve n (rows i) j = y i j) := by
  refine ⟨rfl, Losses.mse_nonneg _ _, ?_⟩
  unfold fullLoss
  rw [Losses.mse_zero hB hn]
  constructor
  · intro h i j
    exact (congrFun (congrFun h i) j).symm
  · intro h
    funext i j
    exact (h i j).symm

/-- **C242.** The forecast served depends on the history only through its embedding: rows with the same exogenous columns and the same embedded history
get the same forecast. -/
theorem C242_embedding_suffices (N : Net) (n : ℕ) (row row' : ℕ → ℝ) (he : ∀ i < N.m, N.embed row i = N.embed row' i) (hx : ∀ i < N.ex, row i = row' i)
    (hnm : n ≤ N.m) (j : ℕ) : N.serve n row j = N.serve n row' j := by
  have h1 : N.call row = N.call row' := by
    unfold Net.call
    congr 1
    · funext i
      unfold firstK
      split
      · rename_i h; exact he i h
      · rfl
    · funext i
      unfold firstK
      split
      · rename_i h; exact hx i h
      · rfl
  unfold Net.serve lastN
  rw [h1]
  apply C72_causal_invert
  intro k hk
  unfold shiftIn
  split
  · exact he _ (by omega)
  · rfl

/-- **C242.** Defect: with two or more layers and no exogenous columns there are different histories that always get the same forecast, however the head is
trained. -/
theorem C242_indistinguishable (s : ℝ) (m n : ℕ) (hm : 0 < m) (hnm : n ≤ m) (l l' : Layer) (ls : List Layer) :
    ∃ row row' : ℕ → ℝ, (∃ i < m, row i ≠ row' i) ∧ ∀ head, ∀ j < n, (Net.mk s (l :: l' :: ls) 0 m head).serve n row j =
      (Net.mk s (l :: l' :: ls) 0 m head).serve n row' j := by
  obtain ⟨x, y, hne, he⟩ := C72_not_injective s m hm l l' ls
  refine ⟨x, y, hne, fun head j _ => ?_⟩
  apply C242_embedding_suffices _ _ _ _ _ _ hnm j
  · intro i hi
    simp only [Net.embed]
    have hx : ∀ z : ℕ → ℝ, (Net.mk s (l :: l' :: ls) 0 m head).endogenous z = z := by
      intro z; funext i; simp [Net.endogenous]
    rw [hx, hx]
    exact he i hi
  · intro i hi
    exact absurd hi (by simp)

theorem decode_congr (s : ℝ) (m n : ℕ) (ls : List Layer) (x e e' : ℕ → ℝ) (h : ∀ j < n, e j = e' j) (j : ℕ) (hj : j < n) :
    decodeForecast s m n ls x e j = decodeForecast s m n ls x e' j := by
  unfold decodeForecast lastN
  apply C72_causal_invert
  intro k hk
  unfold shiftIn
  by_cases hk2 : k < m - n
  · rw [if_pos hk2, if_pos hk2]
  · rw [if_neg hk2, if_neg hk2]
    exact h _ (by omega)

/-- With a zero quasi end-to-end loss, the forecast served is the decoded embedding of the targets. -/
theorem serve_of_zero {n : ℕ} (hB : 1 ≤ B) (hn : 1 ≤ n) (N : Net) (hnm : n ≤ N.m) (rows : Fin B → ℕ → ℝ) (y : Fin B → Fin n → ℝ)
    (h : quasiLoss N rows y = some 0) (i : Fin B) (j : ℕ) (hj : j < n) :
    N.serve n (rows i) j = decodeForecast N.s N.m n N.layers (N.endogenous (rows i))
      (targetEmbedding N.s N.m n N.layers (N.endogenous (rows i)) (wide (y i))) j := by
  have h0 := ((C241_zero_iff hB hn N rows y 0 h).2).1 rfl i
  have h1 : N.serve n (rows i) j = decodeForecast N.s N.m n N.layers (N.endogenous (rows i)) (N.call (rows i)) j := rfl
  rw [h1]
  apply decode_congr _ _ _ _ _ _ _ _ j hj
  intro k hk
  rw [← targetRow_eq N n hnm]
  exact h0 ⟨k, hk⟩

theorem wide_apply {n : ℕ} (y : Fin n → ℝ) (j : Fin n) : wide y j = y j := by simp [wide]

/-- **C242.** Quasi end-to-end training with a history as long as the horizon: zero training loss means exact forecasts on the batch, if no value fed
to an activation is within 1e-12 of zero. -/
theorem C242_quasi_equal_lengths {n : ℕ} (hB : 1 ≤ B) (hn : 1 ≤ n) (N : Net) (hnm : N.m = n) (rows : Fin B → ℕ → ℝ) (y : Fin B → Fin n → ℝ)
    (h : quasiLoss N rows y = some 0) (hc : ∀ i, Clear N.s n N.layers (wide (y i))) : fullLoss N rows y = 0 := by
  apply (C242_full hB hn N rows y).2.2.2
  intro i j
  rw [serve_of_zero hB hn N hnm.ge rows y h i j j.isLt, hnm, C126_equal_lengths _ _ _ _ _ (hc i) j j.isLt, wide_apply]

/-- **C242.** Defect: with a longer history and one layer, a network whose quasi end-to-end loss is zero serves exact forecasts on the batch exactly
if, in every row, the mismatch of the past part of the window vanishes after weighting with the kernel. -/
theorem C242_quasi_one_layer_iff {n : ℕ} (hB : 1 ≤ B) (hn : 1 ≤ n) (N : Net) (hnm : n ≤ N.m) (l : Layer) (hl : N.layers = [l]) (rows : Fin B → ℕ → ℝ)
    (y : Fin B → Fin n → ℝ) (h : quasiLoss N rows y = some 0) :
    fullLoss N rows y = 0 ↔ ∀ i, ∀ k < n, ∑ j ∈ range (N.m - n), kernel N.s N.m l.vec (N.m - n + k) j *
      (invert N.s N.m [l] (shiftIn N.m n (N.embed (rows i)) (N.targetRow n (rows i) (wide (y i)))) j - rows i (N.ex + n + j)) = 0 := by
  have key : ∀ i, (∀ j : Fin n, N.serve n (rows i) j = y i j) ↔
      ∀ j < n, decodeForecast N.s N.m n N.layers (N.endogenous (rows i)) (targetEmbedding N.s N.m n N.layers (N.endogenous (rows i)) (wide (y i))) j
        = wide (y i) j := by
    intro i
    constructor
    · intro h1 j hj
      rw [← serve_of_zero hB hn N hnm rows y h i j hj, h1 ⟨j, hj⟩, wide, dif_pos hj]
    · intro h1 j
      rw [serve_of_zero hB hn N hnm rows y h i j j.isLt, h1 j j.isLt, wide_apply]
  rw [(C242_full hB hn N rows y).2.2]
  apply forall_congr'
  intro i
  rw [key i, hl, C126_one_layer_iff _ _ _ hnm]
  apply forall_congr'
  intro k
  apply imp_congr_right
  intro _
  rw [targetRow_eq N n hnm, hl]
  have hs : ∀ j ∈ range (N.m - n), shiftIn N.m n (N.endogenous (rows i)) (wide (y i)) j = rows i (N.ex + n + j) := by
    intro j hj
    unfold shiftIn Net.endogenous
    rw [if_pos (mem_range.1 hj)]
    congr 1
    omega
  have he : N.embed (rows i) = INN.embed N.s N.m [l] (N.endogenous (rows i)) := by unfold Net.embed; rw [hl]
  rw [he]
  constructor <;> intro h2 <;> rw [← h2]
  · exact sum_congr rfl (fun j hj => by rw [hs j hj])
  · exact sum_congr rfl (fun j hj => by rw [hs j hj])

/-- The layer of the witness: one entry below the diagonal and an offset of the last coordinate. -/
noncomputable def stuckLayer : Layer := ⟨[1, 0, 0], fun i => if i = 2 then 1 else 0⟩

/-- The network of the witness: history three, no exogenous columns, a head forecasting the embedding (0, 1). -/
noncomputable def stuckNet : Net := ⟨1, [stuckLayer], 0, 3, fun _ _ j => if j = 1 then 1 else 0⟩

theorem stuck_kernel : kernel 1 3 stuckLayer.vec 1 0 = Real.tanh 1 / 3 ∧ kernel 1 3 stuckLayer.vec 2 0 = 0 ∧ kernel 1 3 stuckLayer.vec 2 1 = 0 ∧
    kernel 1 3 stuckLayer.vec 0 0 = 1 ∧ kernel 1 3 stuckLayer.vec 1 1 = 1 ∧ kernel 1 3 stuckLayer.vec 2 2 = 1 ∧
    kernel 1 3 stuckLayer.vec 0 1 = 0 ∧ kernel 1 3 stuckLayer.vec 0 2 = 0 ∧ kernel 1 3 stuckLayer.vec 1 2 = 0 := by
  simp [kernel, lowerTri, stuckLayer]

theorem stuck_embed (x : ℕ → ℝ) : INN.embed 1 3 [stuckLayer] x 0 = x 0 ∧ INN.embed 1 3 [stuckLayer] x 1 = Real.tanh 1 / 3 * x 0 + x 1 ∧
    INN.embed 1 3 [stuckLayer] x 2 = x 2 + 1 := by
  obtain ⟨h10, h20, h21, h00, h11, h22, h01, h02, h12⟩ := stuck_kernel
  simp only [INN.embed, affine, sum_range_succ, sum_range_zero, h10, h20, h21, h00, h11, h22, h01, h02, h12]
  simp [stuckLayer]

/-- **C242.** Defect, concretely: a history of three zeros, two targets equal to zero. The quasi end-to-end loss of the network is zero, the best possible,
yet the first forecast it serves is off by a third of `tanh 1`. -/
theorem C242_quasi_perfect_but_wrong :
    quasiLoss stuckNet (fun (_ : Fin 1) _ => 0) (fun _ (_ : Fin 2) => 0) = some 0 ∧
    stuckNet.serve 2 (fun _ => 0) 0 = -(Real.tanh 1 / 3) ∧ fullLoss stuckNet (fun (_ : Fin 1) _ => 0) (fun _ (_ : Fin 2) => 0) ≠ 0 := by
  have ht : ∀ j : Fin 2, targetTable stuckNet (fun (_ : Fin 1) _ => (0 : ℝ)) (fun _ (_ : Fin 2) => (0 : ℝ)) 0 j = if j.val = 1 then 1 else 0 := by
    have hz : stuckNet.endogenous (stuckNet.future 2 (fun _ => (0 : ℝ)) (wide (fun (_ : Fin 2) => (0 : ℝ)))) = fun _ => 0 := by
      funext i
      simp [Net.endogenous, Net.future, shiftIn, wide]
    obtain ⟨-, h1, h2⟩ := stuck_embed (fun _ => 0)
    intro j
    show INN.embed 1 3 [stuckLayer] (stuckNet.endogenous (stuckNet.future 2 (fun _ => (0 : ℝ)) (wide (fun (_ : Fin 2) => (0 : ℝ))))) (3 - 2 + j.val) = _
    rw [hz]
    fin_cases j
    · simpa using h1
    · simpa using h2
  have hq : quasiLoss stuckNet (fun (_ : Fin 1) _ => 0) (fun _ (_ : Fin 2) => 0) = some 0 := by
    cases hr : quasiLoss stuckNet (fun (_ : Fin 1) _ => (0 : ℝ)) (fun _ (_ : Fin 2) => (0 : ℝ)) with
    | none =>
      have h := (C241_undefined_iff (le_refl 1) (by norm_num) _ _ _).1 hr 0 0 1
      rw [ht, ht] at h
      norm_num at h
    | some r =>
      have h := ((C241_zero_iff (le_refl 1) (by norm_num) _ _ _ r hr).2).2 (by
        intro i j
        have h2 := ht j
        exact h2.symm)
      rw [h]
  have hs : stuckNet.serve 2 (fun _ => 0) 0 = -(Real.tanh 1 / 3) := by
    obtain ⟨h10, h20, h21, h00, h11, h22, h01, h02, h12⟩ := stuck_kernel
    obtain ⟨e0, e1, e2⟩ := stuck_embed (fun _ => 0)
    show solve (kernel 1 3 stuckLayer.vec) (fun i => shiftIn 3 2 (INN.embed 1 3 [stuckLayer] (fun _ => 0)) (fun j => if j = 1 then 1 else 0) i
      - stuckLayer.bias i) 1 = _
    rw [solve, Fin.sum_univ_one]
    simp only [Fin.val_zero]
    rw [solve, h11, h10, h00]
    simp only [shiftIn]
    norm_num
    rw [e2]
    simp [stuckLayer]
  refine ⟨hq, hs, ?_⟩
  intro h
  have h2 := (C242_full (le_refl 1) (by norm_num) _ _ _).2.2.1 h 0 0
  rw [show ((0 : Fin 2) : ℕ) = 0 from rfl, hs] at h2
  have h3 : 0 < Real.tanh 1 := by
    rw [Real.tanh_eq_sinh_div_cosh]
    exact div_pos (Real.sinh_pos_iff.2 one_pos) (Real.cosh_pos 1)
  linarith

/-! ### Training without forecasts -/

/-- **C243.** Defect: without end-to-end training the targets play no role. The loss is the same for any two target frames, even of different widths; it
is infinite exactly if a coordinate of the embedding is zero on the whole batch, otherwise nonnegative and zero exactly if every coordinate has mean
zero and mean square one. -/
theorem C243_targets_unused {n n' : ℕ} (hB : 1 ≤ B) (s : ℝ) (m : ℕ) (hm : 1 ≤ m) (ls : List Layer) (rows : Fin B → ℕ → ℝ) (y : Fin B → Fin n → ℝ)
    (y' : Fin B → Fin n' → ℝ) :
    plainLoss s m ls rows y = plainLoss s m ls rows y' ∧
    (plainLoss s m ls rows y = none ↔ ∃ j < m, ∀ i, INN.embed s m ls (rows i) j = 0) ∧
    ∀ r, plainLoss s m ls rows y = some r → 0 ≤ r ∧ (r = 0 ↔ ∀ j < m, Losses.Spec.Standard (fun i => INN.embed s m ls (rows i) j)) := by
  have h := Losses.C201_penalty hB hm (plainTable s m ls rows)
  refine ⟨rfl, ?_, ?_⟩
  · unfold plainLoss
    rw [h.1]
    constructor
    · rintro ⟨j, hj⟩
      exact ⟨j, j.isLt, hj⟩
    · rintro ⟨j, hj, h2⟩
      exact ⟨⟨j, hj⟩, h2⟩
  · intro r hr
    refine ⟨(h.2 r hr).1, (h.2 r hr).2.trans ?_⟩
    constructor
    · intro h2 j hj
      exact h2 ⟨j, hj⟩
    · intro h2 j
      exact h2 j j.isLt

/-- **C243.** Defect: what `predict` then returns under the names of the targets is the embedding of the inputs. It is refused exactly if the number
of targets is not the number of inputs; otherwise the entry of target `k` is the `k`-th coordinate of the embedding. -/
theorem C243_served (s : ℝ) (m : ℕ) (ls : List Layer) (names : List Col) (rows : List (ℕ → ℝ)) :
    (plainServe s m ls names rows = .error .valueError ↔ names.length ≠ m) ∧
    ∀ t, plainServe s m ls names rows = .ok t → t.length = rows.length ∧
      ∀ (i : ℕ) (hi : i < rows.length) (k : ℕ) (hk : k < names.length),
        (t[i]?.bind (fun r => r[k]?)) = some (names[k], INN.embed s m ls rows[i] k) := by
  unfold plainServe
  split
  · rename_i h
    refine ⟨⟨fun h2 => (by simp at h2), fun h2 => absurd h h2⟩, ?_⟩
    intro t ht
    have ht2 := Except.ok.inj ht
    subst ht2
    refine ⟨by simp, ?_⟩
    intro i hi k hk
    simp [hi, hk]
  · rename_i h
    exact ⟨⟨fun _ => h, fun _ => rfl⟩, fun t ht => (by simp at ht)⟩

/-- **C243.** So, with one layer, the forecast of target `k` is input `k` plus a constant up to the scaling factor times the largest of the earlier
inputs, however the network was trained. -/
theorem C243_echo (s : ℝ) (m : ℕ) (l : Layer) (names : List Col) (rows : List (ℕ → ℝ)) (t : List (List (Col × ℝ)))
    (h : plainServe s m [l] names rows = .ok t) (i : ℕ) (hi : i < rows.length) (k : ℕ) (hk : k < names.length) (b : ℝ) (hb : ∀ j < k, |rows[i] j| ≤ b)
    (hb0 : 0 ≤ b) : ∃ v, (t[i]?.bind (fun r => r[k]?)) = some (names[k], v) ∧ |v - (rows[i] k + l.bias k)| ≤ |s| * b := by
  have hl : names.length = m := by
    by_contra hne
    have := (C243_served s m [l] names rows).1.2 hne
    rw [h] at this
    exact absurd this (by simp)
  refine ⟨_, ((C243_served s m [l] names rows).2 t h).2 i hi k hk, ?_⟩
  exact C72_near_identity s m l rows[i] k (by omega) b hb hb0

end PyF.InnLoss
