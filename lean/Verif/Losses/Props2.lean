import Verif.Losses.Props

/-! Properties C201-C203. -/

namespace PyF.Losses
open Spec

variable {n : ℕ}

theorem secondMoment_nonneg {k : ℕ} (e : Fin n → Fin k → ℝ) (j : Fin k) : 0 ≤ secondMoment e j := mean_sq_nonneg (fun i => e i j)

theorem klTerm {k : ℕ} (e : Fin n → Fin k → ℝ) (j : Fin k) (h : secondMoment e j ≠ 0) :
    0 ≤ secondMoment e j + mean (fun i => e i j) ^ 2 - Real.log (secondMoment e j) - 1 ∧
    (secondMoment e j + mean (fun i => e i j) ^ 2 - Real.log (secondMoment e j) - 1 = 0 ↔
      secondMoment e j = 1 ∧ mean (fun i => e i j) = 0) := by
  have hp : 0 < secondMoment e j := lt_of_le_of_ne (secondMoment_nonneg e j) (Ne.symm h)
  obtain ⟨h1, h2⟩ := sub_log _ hp
  have h3 := sq_nonneg (mean (fun i => e i j))
  refine ⟨by linarith, ?_⟩
  constructor
  · intro h0
    have a : secondMoment e j - Real.log (secondMoment e j) - 1 = 0 := by linarith
    have b : mean (fun i => e i j) ^ 2 = 0 := by linarith
    exact ⟨h2.1 a, pow_eq_zero_iff two_ne_zero |>.1 b⟩
  · rintro ⟨a, b⟩
    rw [a, b]
    simp

theorem standard_iff {k : ℕ} (hn : 1 ≤ n) (e : Fin n → Fin k → ℝ) (j : Fin k) :
    (secondMoment e j = 1 ∧ mean (fun i => e i j) = 0) ↔ Standard (fun i => e i j) := by
  have h1 : (n : ℝ) ≠ 0 := by exact_mod_cast (by omega : n ≠ 0)
  unfold Standard secondMoment mean
  rw [div_eq_one_iff_eq h1, div_eq_zero_iff, or_iff_left h1, and_comm]

theorem secondMoment_zero {k : ℕ} (hn : 1 ≤ n) (e : Fin n → Fin k → ℝ) (j : Fin k) : secondMoment e j = 0 ↔ ∀ i, e i j = 0 := by
  have h1 : (n : ℝ) ≠ 0 := by exact_mod_cast (by omega : n ≠ 0)
  unfold secondMoment mean
  rw [div_eq_zero_iff, or_iff_left h1, Finset.sum_eq_zero_iff_of_nonneg (fun i _ => sq_nonneg _)]
  constructor
  · intro h i
    exact pow_eq_zero_iff two_ne_zero |>.1 (h i (Finset.mem_univ _))
  · intro h i _
    rw [h i]
    norm_num

/-- **C201.** The penalty on the embedding of a batch is infinite exactly when a coordinate is zero on the whole batch;
otherwise it is nonnegative, and zero exactly when every coordinate has mean zero and mean square one over the batch. -/
theorem C201_penalty {k : ℕ} (hn : 1 ≤ n) (hk : 1 ≤ k) (e : Fin n → Fin k → ℝ) :
    (klLoss e = none ↔ ∃ j, ∀ i, e i j = 0) ∧
    ∀ r, klLoss e = some r → 0 ≤ r ∧ (r = 0 ↔ ∀ j, Standard (fun i => e i j)) := by
  have hk' : (0 : ℝ) < k := by exact_mod_cast hk
  constructor
  · unfold klLoss
    constructor
    · intro h
      split at h
      · rename_i hc
        obtain ⟨j, hj⟩ := hc
        exact ⟨j, (secondMoment_zero hn e j).1 hj⟩
      · exact absurd h (by simp)
    · rintro ⟨j, hj⟩
      rw [if_pos ⟨j, (secondMoment_zero hn e j).2 hj⟩]
  · intro r hr
    unfold klLoss at hr
    split at hr
    · exact absurd hr (by simp)
    · rename_i hc
      push Not at hc
      have hr' := Option.some.inj hr
      rw [← hr']
      constructor
      · unfold mean
        exact div_nonneg (Finset.sum_nonneg (fun j _ => (klTerm e j (hc j)).1)) hk'.le
      · rw [show mean (fun j => secondMoment e j + mean (fun i => e i j) ^ 2 - Real.log (secondMoment e j) - 1)
            = (∑ j, (secondMoment e j + mean (fun i => e i j) ^ 2 - Real.log (secondMoment e j) - 1)) / (k : ℝ) from rfl]
        rw [div_eq_zero_iff, or_iff_left hk'.ne', Finset.sum_eq_zero_iff_of_nonneg (fun j _ => (klTerm e j (hc j)).1)]
        constructor
        · intro h j
          exact (standard_iff hn e j).1 ((klTerm e j (hc j)).2.1 (h j (Finset.mem_univ _)))
        · intro h j _
          exact (klTerm e j (hc j)).2.2 ((standard_iff hn e j).2 (h j))

/-- **C201.** The penalty uses the mean square where the formula in the comment has the variance: a collapsed embedding,
the same vector `c` for every row of the batch, is not ruled out. It costs at least `log 2`, and exactly that when every
coordinate of `c` has square one half. -/
theorem C201_collapsed {k : ℕ} (hn : 1 ≤ n) (hk : 1 ≤ k) (c : Fin k → ℝ) (hc : ∀ j, c j ≠ 0) :
    ∃ r, klLoss (fun (_ : Fin n) => c) = some r ∧ Real.log 2 ≤ r ∧ (r = Real.log 2 ↔ ∀ j, c j ^ 2 = 1 / 2) := by
  have h1 : (n : ℝ) ≠ 0 := by exact_mod_cast (by omega : n ≠ 0)
  have hk' : (0 : ℝ) < k := by exact_mod_cast hk
  have sm : ∀ j, secondMoment (fun (_ : Fin n) => c) j = c j ^ 2 := by
    intro j
    unfold secondMoment mean
    simp only [Finset.sum_const, Finset.card_univ, Fintype.card_fin, nsmul_eq_mul]
    field_simp
  have mn : ∀ j, mean (fun (_ : Fin n) => c j) = c j := by
    intro j
    unfold mean
    simp only [Finset.sum_const, Finset.card_univ, Fintype.card_fin, nsmul_eq_mul]
    field_simp
  have pos : ∀ j, 0 < c j ^ 2 := fun j => by have := hc j; positivity
  -- one coordinate
  have co : ∀ j, c j ^ 2 + c j ^ 2 - Real.log (c j ^ 2) - 1 - Real.log 2 = (2 * c j ^ 2) - Real.log (2 * c j ^ 2) - 1 := by
    intro j
    rw [Real.log_mul (by norm_num) (pos j).ne']
    ring
  refine ⟨mean (fun j => c j ^ 2 + c j ^ 2 - Real.log (c j ^ 2) - 1), ?_, ?_, ?_⟩
  · unfold klLoss
    rw [if_neg (by rintro ⟨j, hj⟩; rw [sm] at hj; exact (pos j).ne' hj)]
    congr 2
    funext j
    rw [sm, mn]
  · have : mean (fun j => c j ^ 2 + c j ^ 2 - Real.log (c j ^ 2) - 1) - Real.log 2
        = (∑ j, ((2 * c j ^ 2) - Real.log (2 * c j ^ 2) - 1)) / (k : ℝ) := by
      rw [← Finset.sum_congr rfl (fun j _ => co j), Finset.sum_sub_distrib]
      unfold mean
      simp only [Finset.sum_const, Finset.card_univ, Fintype.card_fin, nsmul_eq_mul]
      rw [sub_div, mul_div_cancel_left₀ _ hk'.ne']
    have h2 : 0 ≤ (∑ j, ((2 * c j ^ 2) - Real.log (2 * c j ^ 2) - 1)) / (k : ℝ) :=
      div_nonneg (Finset.sum_nonneg (fun j _ => (sub_log _ (by have := pos j; linarith)).1)) hk'.le
    linarith
  · have : mean (fun j => c j ^ 2 + c j ^ 2 - Real.log (c j ^ 2) - 1) - Real.log 2
        = (∑ j, ((2 * c j ^ 2) - Real.log (2 * c j ^ 2) - 1)) / (k : ℝ) := by
      rw [← Finset.sum_congr rfl (fun j _ => co j), Finset.sum_sub_distrib]
      unfold mean
      simp only [Finset.sum_const, Finset.card_univ, Fintype.card_fin, nsmul_eq_mul]
      rw [sub_div, mul_div_cancel_left₀ _ hk'.ne']
    rw [← sub_eq_zero, this, div_eq_zero_iff, or_iff_left hk'.ne',
      Finset.sum_eq_zero_iff_of_nonneg (fun j _ => (sub_log _ (by have := pos j; linarith)).1)]
    constructor
    · intro h j
      have := (sub_log _ (by have := pos j; linarith)).2.1 (h j (Finset.mem_univ _))
      linarith
    · intro h j _
      exact (sub_log _ (by have := pos j; linarith)).2.2 (by rw [h j]; norm_num)

/-- **C202.** The loss of a structured network on a batch of at least two rows is at least -1, and it is -1 exactly when
the predictions equal the targets, whatever the objective. On one row it is NaN. -/
theorem C202_structured {d : ℕ} (hd : 1 ≤ d) (objective : (Fin n → Fin d → ℝ) → Fin n → ℝ) (p t : Fin n → Fin d → ℝ) :
    (n ≤ 1 → structuredLoss objective p t = none) ∧
    (2 ≤ n → ∃ r, structuredLoss objective p t = some r ∧ -1 ≤ r ∧ (r = -1 ↔ p = t)) := by
  constructor
  · intro hn
    unfold structuredLoss
    simp only [right_single hn, Option.map_none]
  · intro hn
    obtain ⟨m, hm, hlo, -, hbest⟩ := C199_range hn (objective p) (objective t)
    have h1 := mse_nonneg p t
    have h2 := mean_sq_nonneg (fun i => objective t i - objective p i)
    refine ⟨mse p t + m + mean (fun i => (objective t i - objective p i) ^ 2), ?_, by linarith, ?_⟩
    · unfold structuredLoss
      simp only [hm, Option.map_some]
    · constructor
      · intro h
        exact (mse_zero (by omega) hd p t).1 (by linarith)
      · rintro rfl
        have a : mse p p = 0 := (mse_zero (by omega) hd p p).2 rfl
        have b : m = -1 := hbest.2 (fun i j => Iff.rfl)
        rw [a, b]
        simp [mean]

/-- **C202.** The loss of a latent network, when finite, is nonnegative, and it is zero exactly when predictions equal
targets, the controls are reconstructed exactly, the reconstructed controls are predicted like the embedded ones and every
coordinate of the embedding has mean zero and mean square one. -/
theorem C202_embedded {d k c : ℕ} (hn : 1 ≤ n) (hd : 1 ≤ d) (hk : 1 ≤ k) (hc : 1 ≤ c) (p t p' : Fin n → Fin d → ℝ)
    (e : Fin n → Fin k → ℝ) (rec ctrl : Fin n → Fin c → ℝ) (r : ℝ) (h : embeddedLoss p t p' e rec ctrl = some r) :
    0 ≤ r ∧ (r = 0 ↔ p = t ∧ rec = ctrl ∧ p = p' ∧ ∀ j, Standard (fun i => e i j)) := by
  unfold embeddedLoss at h
  cases hkl : klLoss e with
  | none =>
    rw [hkl] at h
    exact absurd h (by simp)
  | some kl =>
    rw [hkl] at h
    simp only [Option.map_some, Option.some.injEq] at h
    obtain ⟨h0, hz⟩ := (C201_penalty hn hk e).2 kl hkl
    have a := mse_nonneg p t
    have b := mse_nonneg rec ctrl
    have b' := mse_nonneg p p'
    rw [← hz, ← mse_zero hn hd p t, ← mse_zero hn hc rec ctrl, ← mse_zero hn hd p p', ← h]
    refine ⟨by linarith, ?_⟩
    constructor
    · intro hs
      refine ⟨by linarith, by linarith, by linarith, by linarith⟩
    · rintro ⟨h1, h2, h3, h4⟩
      rw [h1, h2, h3, h4]
      norm_num

/-- **C203.** `monotonic_objective_relax` is not a penalty: it is zero on pairs ordered alike, but exchanging the two rows
of every sampled pair changes its sign, so a pair ordered differently is rewarded in one of its two orientations. -/
theorem C203_relax (pairs : List (Fin n × Fin n)) (hat objs : Fin n → ℝ) :
    ((∀ p ∈ pairs, 0 ≤ (objs p.1 - objs p.2) * (hat p.1 - hat p.2)) → monotonicRelax pairs hat objs = 0) ∧
    monotonicRelax (pairs.map Prod.swap) hat objs = -monotonicRelax pairs hat objs ∧
    ∀ i j, (objs i - objs j) * (hat i - hat j) < 0 →
      (monotonicRelax [(i, j)] hat objs = objs i - objs j ∧ monotonicRelax [(j, i)] hat objs = objs j - objs i) := by
  refine ⟨?_, ?_, ?_⟩
  · intro h
    unfold monotonicRelax
    rw [div_eq_zero_iff]
    left
    apply List.sum_eq_zero
    intro x hx
    obtain ⟨p, hp, rfl⟩ := List.mem_map.1 hx
    simp only
    rw [if_neg (not_lt.2 (h p hp))]
  · unfold monotonicRelax
    rw [List.length_map, ← neg_div]
    congr 1
    rw [List.map_map]
    induction pairs with
    | nil => simp
    | cons p ps ih =>
      simp only [List.map_cons, List.sum_cons, neg_add, ih]
      congr 1
      simp only [Function.comp, Prod.fst_swap, Prod.snd_swap]
      have : (objs p.2 - objs p.1) * (hat p.2 - hat p.1) = (objs p.1 - objs p.2) * (hat p.1 - hat p.2) := by ring
      rw [this]
      split
      · ring
      · simp
  · intro i j h
    unfold monotonicRelax
    have : (objs j - objs i) * (hat j - hat i) < 0 := by
      have e : (objs j - objs i) * (hat j - hat i) = (objs i - objs j) * (hat i - hat j) := by ring
      rw [e]
      exact h
    simp [h, this]

end PyF.Losses
