import Verif.FkRun.Props
import Mathlib.Analysis.Convex.SpecificFunctions.Basic
import Mathlib.Analysis.Convex.Jensen
import Mathlib.Tactic.LinearCombination
import Mathlib.Tactic.Positivity

/-! Property C312: how far the weights of `FK_multi` can be from equal ones. -/

namespace PyF.FkRun
open PyF

variable {k : ℕ} {E F : Type}

namespace Spec

/-- The largest weight an expert among `k` can have: the others are left with at least the rest. -/
noncomputable def cap (k : ℕ) : ℝ := 1 / (1 + ((k : ℝ) - 1) * Real.exp (-((k : ℝ) / ((k : ℝ) - 1))))

/-- The smallest weight of an expert among `k`. -/
noncomputable def floor (k : ℕ) : ℝ := Real.exp (-(k : ℝ)) / ((k : ℝ) - 1 + Real.exp (-(k : ℝ)))

/-- Weights of an average in which every expert has at least `floor k` and at most `cap k`. -/
def Fair (w : Fin k → ℝ) : Prop := ∑ j, w j = 1 ∧ ∀ j, floor k ≤ w j ∧ w j ≤ cap k

end Spec

theorem fair_convex {v w : Fin k → ℝ} (hv : Spec.Fair v) (hw : Spec.Fair w) {g : ℝ} (h0 : 0 ≤ g) (h1 : g ≤ 1) :
    Spec.Fair (fun j => v j + g * (w j - v j)) := by
  refine ⟨?_, fun j => ?_⟩
  · rw [Finset.sum_add_distrib, ← Finset.mul_sum, Finset.sum_sub_distrib, hv.1, hw.1]
    ring
  · obtain ⟨a1, a2⟩ := hv.2 j
    obtain ⟨b1, b2⟩ := hw.2 j
    constructor <;> nlinarith

theorem floor_pos (hk : 0 < k) : 0 < Spec.floor k := by
  unfold Spec.floor
  have : (1 : ℝ) ≤ k := by exact_mod_cast hk
  have := Real.exp_pos (-(k : ℝ))
  apply div_pos this
  linarith

theorem fair_equal (hk : 0 < k) : Spec.Fair (fun _ : Fin k => 1 / (k : ℝ)) := by
  have h1 : (1 : ℝ) ≤ k := by exact_mod_cast hk
  have hp := Real.exp_pos (-(k : ℝ))
  have he : Real.exp (-(k : ℝ)) ≤ 1 := Real.exp_le_one_iff.2 (by linarith)
  refine ⟨?_, fun _ => ⟨?_, ?_⟩⟩
  · rw [Finset.sum_const, Finset.card_univ, Fintype.card_fin, nsmul_eq_mul]
    field_simp
  · unfold Spec.floor
    rw [div_le_div_iff₀ (by linarith) (by linarith)]
    nlinarith
  · unfold Spec.cap
    have hq := Real.exp_pos (-((k : ℝ) / ((k : ℝ) - 1)))
    have hq1 : Real.exp (-((k : ℝ) / ((k : ℝ) - 1))) ≤ 1 :=
      Real.exp_le_one_iff.2 (by have : 0 ≤ (k : ℝ) / ((k : ℝ) - 1) := div_nonneg (by linarith) (by linarith); linarith)
    apply one_div_le_one_div_of_le
    · nlinarith
    · nlinarith

/-- Exponentials of `k` non-positive numbers of sum `-k`: at most those of a vertex. -/
theorem sum_exp_le (hk : 0 < k) (u : Fin k → ℝ) (h0 : ∀ j, 0 ≤ u j) (hs : ∑ j, u j = k) :
    ∑ j, Real.exp (-(u j)) ≤ (k : ℝ) - 1 + Real.exp (-(k : ℝ)) := by
  have hk' : (0 : ℝ) < k := by exact_mod_cast hk
  have hle : ∀ j, u j ≤ k := fun j => by
    rw [← hs]
    exact Finset.single_le_sum (fun l _ => h0 l) (Finset.mem_univ j)
  have hc : ∀ j, Real.exp (-(u j)) ≤ 1 - u j / k * (1 - Real.exp (-(k : ℝ))) := by
    intro j
    have ht0 : 0 ≤ u j / k := div_nonneg (h0 j) hk'.le
    have ht1 : u j / k ≤ 1 := (div_le_one hk').2 (hle j)
    have := convexOn_exp.2 (Set.mem_univ (0 : ℝ)) (Set.mem_univ (-(k : ℝ))) (sub_nonneg.2 ht1) ht0 (by ring)
    simp only [smul_eq_mul, mul_zero, zero_add, Real.exp_zero, mul_one] at this
    rw [show u j / k * -(k : ℝ) = -(u j) by field_simp] at this
    linarith
  calc ∑ j, Real.exp (-(u j)) ≤ ∑ j, (1 - u j / k * (1 - Real.exp (-(k : ℝ)))) := Finset.sum_le_sum (fun j _ => hc j)
    _ = _ := by
      rw [Finset.sum_sub_distrib, ← Finset.sum_mul, ← Finset.sum_div, hs, Finset.sum_const, Finset.card_univ, Fintype.card_fin,
        nsmul_eq_mul, div_self hk'.ne']
      ring

/-- The other exponentials are at least those of equal numbers. -/
theorem others_exp_ge (u : Fin k → ℝ) (h0 : ∀ j, 0 ≤ u j) (hs : ∑ j, u j = k) (j : Fin k) :
    ((k : ℝ) - 1) * Real.exp (-((k : ℝ) / ((k : ℝ) - 1))) * Real.exp (-(u j)) ≤ ∑ l ∈ Finset.univ.erase j, Real.exp (-(u l)) := by
  have hk : 0 < k := j.pos
  have h1 : (1 : ℝ) ≤ k := by exact_mod_cast hk
  rcases eq_or_lt_of_le h1 with e | hlt
  · rw [← e]
    simp only [sub_self, zero_mul]
    exact Finset.sum_nonneg (fun l _ => (Real.exp_pos _).le)
  · have hk1 : (0 : ℝ) < (k : ℝ) - 1 := by linarith
    have hcard : ((Finset.univ.erase j).card : ℝ) = (k : ℝ) - 1 := by
      rw [Finset.card_erase_of_mem (Finset.mem_univ j), Finset.card_univ, Fintype.card_fin]
      push_cast [Nat.cast_sub hk]
      ring
    have hw : ∑ _l ∈ Finset.univ.erase j, 1 / ((k : ℝ) - 1) = 1 := by
      rw [Finset.sum_const, nsmul_eq_mul, hcard]
      field_simp
    have hJ := convexOn_exp.map_sum_le (t := Finset.univ.erase j) (w := fun _ => 1 / ((k : ℝ) - 1)) (p := fun l => -(u l))
      (fun _ _ => by positivity) hw (fun _ _ => Set.mem_univ _)
    simp only [smul_eq_mul] at hJ
    rw [← Finset.mul_sum, ← Finset.mul_sum, Finset.sum_neg_distrib] at hJ
    have hsum : ∑ l ∈ Finset.univ.erase j, u l = k - u j := by
      rw [← hs, ← Finset.add_sum_erase _ _ (Finset.mem_univ j)]
      ring
    rw [hsum] at hJ
    have hmono : Real.exp (-((k : ℝ) / ((k : ℝ) - 1))) * Real.exp (-(u j)) ≤ Real.exp (1 / ((k : ℝ) - 1) * -(k - u j)) := by
      rw [← Real.exp_add]
      apply Real.exp_le_exp.2
      have : 0 ≤ 1 / ((k : ℝ) - 1) * u j := mul_nonneg (by positivity) (h0 j)
      have h2 := h0 j
      have e : 1 / ((k : ℝ) - 1) * -(k - u j) = -((k : ℝ) / ((k : ℝ) - 1)) + 1 / ((k : ℝ) - 1) * u j := by ring
      rw [e]
      linarith
    calc ((k : ℝ) - 1) * Real.exp (-((k : ℝ) / ((k : ℝ) - 1))) * Real.exp (-(u j))
        = ((k : ℝ) - 1) * (Real.exp (-((k : ℝ) / ((k : ℝ) - 1))) * Real.exp (-(u j))) := by ring
      _ ≤ ((k : ℝ) - 1) * (1 / ((k : ℝ) - 1) * ∑ l ∈ Finset.univ.erase j, Real.exp (-(u l))) :=
        mul_le_mul_of_nonneg_left (hmono.trans hJ) hk1.le
      _ = _ := by field_simp

theorem err_nonneg (nsa : ℕ) (p : ℕ → ℕ → ℝ) (y : ℝ) (i : ℕ) : 0 ≤ err nsa p y i := by
  unfold err
  exact div_nonneg (Finset.sum_nonneg (fun _ _ => abs_nonneg _)) (Nat.cast_nonneg _)

/-- The coefficients of one row are fair. -/
theorem softmax_fair (hk : 0 < k) (e : Fin k → ℝ) (h0 : ∀ j, 0 ≤ e j) (hne : ∃ j, e j ≠ 0) :
    ∃ w, softmax e = some w ∧ Spec.Fair w := by
  have hk' : (0 : ℝ) < k := by exact_mod_cast hk
  have hpos : 0 < ∑ j, e j := by
    obtain ⟨j, hj⟩ := hne
    exact Finset.sum_pos' (fun l _ => h0 l) ⟨j, Finset.mem_univ j, lt_of_le_of_ne (h0 j) (Ne.symm hj)⟩
  have havg : 0 < (∑ j, e j) / k := div_pos hpos hk'
  unfold softmax
  simp only
  rw [if_neg havg.ne']
  refine ⟨_, rfl, ?_, ?_⟩
  · have : (0 : ℝ) < ∑ l, Real.exp (-(e l / ((∑ j, e j) / k))) :=
      Finset.sum_pos (fun l _ => Real.exp_pos _) ⟨⟨0, hk⟩, Finset.mem_univ _⟩
    rw [← Finset.sum_div]
    exact div_self this.ne'
  · intro j
    set u : Fin k → ℝ := fun l => e l / ((∑ j, e j) / k) with hu
    have hu0 : ∀ l, 0 ≤ u l := fun l => div_nonneg (h0 l) havg.le
    have hus : ∑ l, u l = k := by
      rw [hu]
      simp only
      rw [← Finset.sum_div]
      field_simp
    have hle : u j ≤ k := by
      rw [← hus]
      exact Finset.single_le_sum (fun l _ => hu0 l) (Finset.mem_univ j)
    have hS : (0 : ℝ) < ∑ l, Real.exp (-(u l)) := Finset.sum_pos (fun l _ => Real.exp_pos _) ⟨j, Finset.mem_univ _⟩
    have h1 : (1 : ℝ) ≤ k := by exact_mod_cast hk
    show Spec.floor k ≤ Real.exp (-(u j)) / ∑ l, Real.exp (-(u l)) ∧ Real.exp (-(u j)) / ∑ l, Real.exp (-(u l)) ≤ Spec.cap k
    constructor
    · unfold Spec.floor
      exact div_le_div₀ (Real.exp_pos _).le (Real.exp_le_exp.2 (by linarith)) hS (sum_exp_le hk u hu0 hus)
    · unfold Spec.cap
      have ho := others_exp_ge u hu0 hus j
      rw [← Finset.add_sum_erase _ _ (Finset.mem_univ j)]
      have hq := Real.exp_pos (-((k : ℝ) / ((k : ℝ) - 1)))
      have hj := Real.exp_pos (-(u j))
      have hk1 : (0 : ℝ) ≤ (k : ℝ) - 1 := by linarith
      have hO : 0 ≤ ∑ l ∈ Finset.univ.erase j, Real.exp (-(u l)) := Finset.sum_nonneg (fun l _ => (Real.exp_pos _).le)
      have hB : 0 ≤ ((k : ℝ) - 1) * Real.exp (-((k : ℝ) / ((k : ℝ) - 1))) := mul_nonneg hk1 hq.le
      rw [div_le_div_iff₀ (by linarith) (by linarith)]
      nlinarith

/-- What the loop keeps until the matrices are estimated anew: fair weights and multiples of the identity. -/
def Early (c : Cfg k) (s : St k) : Prop :=
  (∃ v, s.x = some v ∧ Spec.Fair v) ∧ (∃ p : ℝ, 0 ≤ p ∧ s.P = p • 1) ∧ s.Q = some (c.q • 1) ∧ s.R = some (c.r • 1)

theorem early_filter (c : Cfg k) (hq : 0 ≤ c.q) (hr : 0 < c.r) (hpinv : ∀ a : ℝ, 0 < a → c.pinv (a • 1) = a⁻¹ • 1) (s : St k)
    (h : Early c s) (y : Fin k → ℝ) (hy : Spec.Fair y) : Early c (filter c s (some y)) := by
  obtain ⟨⟨v, hx, hv⟩, ⟨p, hp, hP⟩, hQ, hR⟩ := h
  obtain ⟨f1, f2⟩ := filter_QR c s (some y)
  have hpos : 0 < p + c.q + c.r := by linarith
  set g : ℝ := (p + c.q) * (p + c.q + c.r)⁻¹ with hg
  have hg0 : 0 ≤ g := mul_nonneg (by linarith) (inv_nonneg.2 hpos.le)
  have hg1 : g ≤ 1 := by
    rw [hg, ← div_eq_mul_inv, div_le_one hpos]
    linarith
  have hgain : gain c s.P (c.q • 1) (c.r • 1) = g • (1 : Mat k) := by
    unfold gain
    rw [hP, ← add_smul, ← add_smul, hpinv _ hpos]
    simp only [Matrix.smul_mul, Matrix.mul_smul, Matrix.one_mul, smul_smul]
    rw [hg, mul_comm]
  refine ⟨⟨fun j => v j + g * (y j - v j), ?_, fair_convex hv hy hg0 hg1⟩, ⟨(1 - g) * ((p + c.q - g * (p + c.q)) * (1 - g)) + g * (c.r * g), ?_, ?_⟩,
    f1.trans hQ, f2.trans hR⟩
  · unfold filter
    rw [hQ, hR]
    simp only [hx, hgain]
    congr 1
    funext j
    simp [Matrix.smul_mulVec]
  · have : 0 ≤ p + c.q - g * (p + c.q) := by nlinarith
    have : 0 ≤ (1 - g) * ((p + c.q - g * (p + c.q)) * (1 - g)) := by
      have h1 : 0 ≤ 1 - g := by linarith
      positivity
    have : 0 ≤ g * (c.r * g) := by positivity
    linarith
  · unfold filter
    rw [hQ, hR]
    simp only [hgain]
    simp only [hP]
    have e1 : (1 : Mat k) - g • 1 = (1 - g) • 1 := by rw [sub_smul, one_smul]
    rw [e1]
    simp only [Matrix.transpose_smul, Matrix.transpose_one, Matrix.smul_mul, Matrix.mul_smul, Matrix.one_mul, smul_smul, ← add_smul,
      ← sub_smul]
    congr 1
    ring

theorem not_exact_err (nsa : ℕ) (p : Fin k → ℕ → ℕ → ℝ) (y : ℝ) (i : ℕ) (h : ¬ Spec.AllExact nsa p y i) :
    ∃ j, err nsa (p j) y i ≠ 0 := by
  unfold Spec.AllExact at h
  push Not at h
  obtain ⟨j, sa, hsa, hne⟩ := h
  refine ⟨j, ?_⟩
  unfold err
  have hn : (0 : ℝ) < nsa := by exact_mod_cast (by omega : 0 < nsa)
  apply ne_of_gt
  apply div_pos _ hn
  exact Finset.sum_pos' (fun _ _ => abs_nonneg _) ⟨⟨sa, hsa⟩, Finset.mem_univ _, abs_pos.2 (sub_ne_zero.2 hne)⟩

theorem early_coeffs (hk : 0 < k) (c : Cfg k) (d : Data k) (s : St k) (i : ℕ) (h : Early c s)
    (hne : c.nsa ≤ i → ¬ Spec.AllExact c.nsa d.p (d.obs i) i) : ∃ y, coeffsT c d s i = some y ∧ Spec.Fair y := by
  unfold coeffsT
  by_cases hn : c.nsa ≤ i
  · rw [if_pos hn]
    exact softmax_fair hk _ (fun j => err_nonneg _ _ _ _) (not_exact_err _ _ _ _ (hne hn))
  · rw [if_neg hn]
    exact h.1

theorem early_loop (hk : 0 < k) (c : Cfg k) (hq : 0 ≤ c.q) (hr : 0 < c.r)
    (hpinv : ∀ a : ℝ, 0 < a → c.pinv (a • 1) = a⁻¹ • 1) (d : Data k) (is : List ℕ) (his : ∀ i ∈ is, i < c.m)
    (hne : ∀ i ∈ is, c.nsa ≤ i → ¬ Spec.AllExact c.nsa d.p (d.obs i) i) (w w' : Work k) (h0 : Early c w.s)
    (h : loop c d true w is = .ok w') : Early c w'.s := by
  induction is generalizing w with
  | nil =>
    simp only [loop, Except.ok.injEq] at h
    subst h
    exact h0
  | cons i is ih =>
    obtain ⟨w1, h1, -, -, -, hs, -⟩ := step_ok c d w i
    simp only [loop, h1] at h
    obtain ⟨y, hy, hf⟩ := early_coeffs hk c d w.s i h0 (hne i (by simp))
    refine ih (fun j hj => his j (by simp [hj])) (fun j hj => hne j (by simp [hj])) w1 ?_ h
    rw [hs (by have := his i (by simp); omega), hy]
    exact early_filter c hq hr hpinv w.s h0 y hf

theorem forecast_fair (hk : 0 < k) (d : Data k) (i : ℕ) (v : Fin k → ℝ) (ct : Option (Vec k)) (hv : Spec.Fair v) :
    ∃ g, forecast d i (some v) ct = some g ∧ ∀ s, g s = ∑ j, v j * d.p j i s := by
  have hpos : ∀ j, 0 < v j := fun j => lt_of_lt_of_le (floor_pos hk) (hv.2 j).1
  have hs : ∑ j, |v j| = 1 := by
    rw [← hv.1]
    exact Finset.sum_congr rfl (fun j _ => abs_of_pos (hpos j))
  unfold forecast
  simp only
  unfold Fast.weights
  rw [if_neg (by rw [hs]; norm_num)]
  refine ⟨_, rfl, fun s => ?_⟩
  unfold Fast.combine
  apply Finset.sum_congr rfl
  intro j _
  simp only
  rw [hs, div_one, abs_of_pos (hpos j), mul_comm]

/-- **C312.** Before the matrices of the filter are estimated anew every forecast of a new `FK_multi` is an average of the
experts in which no expert has more than `cap k` nor less than `floor k`, however good or bad its past forecasts were. -/
theorem C312_weights (hk : 0 < k) (c : Cfg k) (hq : 0 ≤ c.q) (hr : 0 < c.r)
    (hpinv : ∀ a : ℝ, 0 < a → c.pinv (a • 1) = a⁻¹ • 1) (ex : Experts E F k) (e : E) (f : F) (fit : Bool) (i : ℕ)
    (hi : i < ex.len f) (hm : i ≤ c.m)
    (hne : ∀ t ≤ i, c.nsa ≤ t →
      ¬ Spec.AllExact c.nsa (ex.predict (expertsOf ex { experts := e, states := fresh c } f fit) f) (ex.obs f t) t) :
    ∃ o' rows g w, call c ex { experts := e, states := fresh c } f fit = .ok (o', rows) ∧ rows[i]? = some (some g) ∧
      Spec.Fair w ∧ ∀ s, g s = ∑ j, w j * ex.predict (expertsOf ex { experts := e, states := fresh c } f fit) f j i s := by
  set o : Obj E k := { experts := e, states := fresh c } with ho
  obtain ⟨w, h, hlen, hc⟩ := call_eq c ex o f fit (by omega)
  set d : Data k := { len := ex.len f, obs := ex.obs f, p := ex.predict (expertsOf ex o f fit) f } with hd
  rw [split_range (ex.len f) i (by omega), show ex.len f - i = (ex.len f - i - 1) + 1 by omega, List.range'_succ, loop_append] at h
  obtain ⟨w1, l, h1, hr1, hl1⟩ := loop_ok c d (List.range i) { s := o.states, hist := [], rows := [] }
  rw [h1] at h
  simp only at h
  have h0 : Early c o.states := ⟨⟨_, rfl, fair_equal hk⟩, ⟨1000, by norm_num, rfl⟩, rfl, rfl⟩
  have hE := early_loop hk c hq hr hpinv d (List.range i) (fun j hj => by have := List.mem_range.1 hj; omega)
    (fun t ht => hne t (by have := List.mem_range.1 ht; omega)) { s := o.states, hist := [], rows := [] } w1 h0 h1
  obtain ⟨w2, h2, -, hr2, -⟩ := step_ok c d w1 i
  obtain ⟨y, hy, hf⟩ := early_coeffs hk c d w1.s i hE (hne i le_rfl)
  rw [hy] at hr2
  obtain ⟨⟨v, hv, hfv⟩, -⟩ := early_filter c hq hr hpinv w1.s hE y hf
  obtain ⟨g, hg, hgs⟩ := forecast_fair hk d i v (some y) hfv
  rw [hv, hg] at hr2
  simp only [loop, h2] at h
  obtain ⟨w3, l3, h3, hr3, -⟩ := loop_ok c d (List.range' (i + 1) (ex.len f - i - 1)) w2
  rw [h3] at h
  simp only [Except.ok.injEq] at h
  subst h
  refine ⟨_, _, g, v, hc, ?_, hfv, hgs⟩
  rw [hr3, hr2, hr1]
  have hli : l.length = i := by rw [hl1]; simp
  simp only [List.nil_append]
  rw [List.append_assoc, List.getElem?_append_right (by omega), hli, Nat.sub_self]
  rfl

/-- **C312.** So a perfect expert is never followed alone: if all others are off by at least `δ` on the same side, the combined
forecast is off by at least `(1 - cap k) δ`. -/
theorem C312_miss (hk : 0 < k) (c : Cfg k) (hq : 0 ≤ c.q) (hr : 0 < c.r)
    (hpinv : ∀ a : ℝ, 0 < a → c.pinv (a • 1) = a⁻¹ • 1) (ex : Experts E F k) (e : E) (f : F) (fit : Bool) (i : ℕ)
    (hi : i < ex.len f) (hm : i ≤ c.m)
    (hne : ∀ t ≤ i, c.nsa ≤ t →
      ¬ Spec.AllExact c.nsa (ex.predict (expertsOf ex { experts := e, states := fresh c } f fit) f) (ex.obs f t) t)
    (best : Fin k) (s : ℕ) (truth δ : ℝ) (hδ : 0 ≤ δ)
    (hbest : ex.predict (expertsOf ex { experts := e, states := fresh c } f fit) f best i s = truth)
    (hoff : ∀ j, j ≠ best → truth + δ ≤ ex.predict (expertsOf ex { experts := e, states := fresh c } f fit) f j i s) :
    ∃ o' rows g, call c ex { experts := e, states := fresh c } f fit = .ok (o', rows) ∧ rows[i]? = some (some g) ∧
      (1 - Spec.cap k) * δ ≤ g s - truth := by
  obtain ⟨o', rows, g, w, h1, h2, hf, hg⟩ := C312_weights hk c hq hr hpinv ex e f fit i hi hm hne
  refine ⟨o', rows, g, h1, h2, ?_⟩
  set p := fun j => ex.predict (expertsOf ex { experts := e, states := fresh c } f fit) f j i s with hp
  have e1 : g s - truth = ∑ j ∈ Finset.univ.erase best, w j * (p j - truth) := by
    have ht : ∑ j, w j * (p j - truth) = g s - truth := by
      rw [hg s]
      simp only [mul_sub]
      rw [Finset.sum_sub_distrib, ← Finset.sum_mul, hf.1, one_mul]
    rw [← ht, ← Finset.add_sum_erase _ _ (Finset.mem_univ best)]
    simp only [hp, hbest, sub_self, mul_zero, zero_add]
  have e2 : ∑ j ∈ Finset.univ.erase best, w j = 1 - w best := by
    rw [← hf.1, ← Finset.add_sum_erase _ _ (Finset.mem_univ best)]
    ring
  have e3 : (1 - w best) * δ ≤ ∑ j ∈ Finset.univ.erase best, w j * (p j - truth) := by
    rw [← e2, Finset.sum_mul]
    apply Finset.sum_le_sum
    intro j hj
    have hw : 0 < w j := lt_of_lt_of_le (floor_pos hk) (hf.2 j).1
    have := hoff j (Finset.ne_of_mem_erase hj)
    exact mul_le_mul_of_nonneg_left (by simp only [hp]; linarith) hw.le
  have e4 := (hf.2 best).2
  rw [e1]
  nlinarith

/-- **C312.** With more than one expert the bound is below one: something is always missing. -/
theorem C312_cap (hk : 1 < k) : Spec.cap k < 1 ∧ 0 < Spec.floor k := by
  refine ⟨?_, floor_pos (by omega)⟩
  unfold Spec.cap
  have h1 : (1 : ℝ) < k := by exact_mod_cast hk
  have hq := Real.exp_pos (-((k : ℝ) / ((k : ℝ) - 1)))
  have := mul_pos (sub_pos.2 h1) hq
  rw [div_lt_one (by linarith)]
  linarith

end PyF.FkRun
