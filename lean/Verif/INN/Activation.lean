import Verif.INN.Model
import Mathlib.Tactic.Ring
import Mathlib.Tactic.Linarith
import Mathlib.Tactic.FieldSimp
import Mathlib.Analysis.Complex.ExponentialBounds

namespace PyF.INN

theorem eps_pos : 0 < eps := by unfold eps; positivity

theorem eps_lt_one : eps < 1 := by unfold eps; norm_num

theorem log11_pos : 0 < Real.log 11 := Real.log_pos (by norm_num)

theorem left_bound : slope * (-10) - icpt = -Real.log 11 := by unfold icpt slope; ring

theorem right_bound : slope * 10 + icpt = Real.log 11 := by unfold icpt slope; ring

theorem linloglinInv_eq (y : ℝ) : linloglinInv y = if y ≤ -Real.log 11 then 11 * (y + Real.log 11) - 10 else if Real.log 11 ≤ y then 11 * (y - Real.log 11) + 10
    else if y < 0 then 1 - Real.exp (-y) else Real.exp y - 1 := by
  unfold linloglinInv
  rw [left_bound, right_bound]
  have h1 : (y + icpt) / slope = 11 * (y + Real.log 11) - 10 := by unfold icpt slope; field_simp; ring
  have h2 : (y - icpt) / slope = 11 * (y - Real.log 11) + 10 := by unfold icpt slope; field_simp; ring
  rw [h1, h2]

/-- **C72.** What the coded inverse of the activation gives: exact away from zero, and plus or minus 1e-12 nearer to it. -/
theorem C72_activation_inverse (x : ℝ) : linloglinInv (linloglin x) = if x < 0 then -max (-x) eps else max x eps := by
  have he := eps_pos
  have he1 := eps_lt_one
  have hl := log11_pos
  rw [linloglinInv_eq]
  unfold linloglin
  by_cases h1 : x < -10
  · rw [if_pos h1, if_pos (show x < 0 by linarith), max_eq_left (by linarith)]
    have : slope * x - icpt = (x + 10) / 11 - Real.log 11 := by unfold icpt slope; ring
    rw [this, if_pos (by linarith)]
    ring
  rw [if_neg h1]
  by_cases h2 : x < 0
  · rw [if_pos h2, if_pos h2]
    set u := max (-x) eps with hu
    have hu0 : 0 < u := lt_of_lt_of_le he (le_max_right _ _)
    have hu1 : u ≤ 10 := max_le (by linarith) (by linarith)
    by_cases h3 : u = 10
    · rw [h3, show (10 : ℝ) + 1 = 11 by norm_num, if_pos le_rfl]; ring
    · have hlt : Real.log (u + 1) < Real.log 11 := Real.log_lt_log (by linarith) (by linarith [lt_of_le_of_ne hu1 h3])
      have hpos : 0 < Real.log (u + 1) := Real.log_pos (by linarith)
      rw [if_neg (by linarith), if_neg (by linarith), if_pos (by linarith), neg_neg, Real.exp_log (by linarith)]
      ring
  rw [if_neg h2, if_neg h2]
  by_cases h3 : x < 10
  · rw [if_pos h3]
    set u := max x eps with hu
    have hu0 : 0 < u := lt_of_lt_of_le he (le_max_right _ _)
    have hu1 : u < 10 := max_lt (by linarith) (by linarith)
    have hlt : Real.log (u + 1) < Real.log 11 := Real.log_lt_log (by linarith) (by linarith)
    have hpos : 0 < Real.log (u + 1) := Real.log_pos (by linarith)
    rw [if_neg (by linarith), if_neg (by linarith), if_neg (by linarith), Real.exp_log (by linarith)]
    ring
  · rw [if_neg h3, max_eq_left (by linarith)]
    have : slope * x + icpt = (x - 10) / 11 + Real.log 11 := by unfold icpt slope; ring
    rw [this, if_neg (by linarith), if_pos (by linarith)]
    ring

/-- **C72.** The inverse of the activation is exact exactly outside the interval of half-width 1e-12, and never off by more than 1e-12. -/
theorem C72_activation_exact_iff (x : ℝ) : (linloglinInv (linloglin x) = x ↔ eps ≤ |x|) ∧ |linloglinInv (linloglin x) - x| ≤ eps := by
  have he := eps_pos
  rw [C72_activation_inverse]
  by_cases h : x < 0
  · rw [if_pos h, abs_of_neg h]
    by_cases h2 : eps ≤ -x
    · rw [max_eq_left h2]
      simp [h2, he.le]
    · rw [max_eq_right (by linarith)]
      refine ⟨⟨fun h3 => by linarith, fun h3 => absurd h3 h2⟩, ?_⟩
      rw [abs_le]; constructor <;> linarith
  · rw [if_neg h, abs_of_nonneg (not_lt.1 h)]
    by_cases h2 : eps ≤ x
    · rw [max_eq_left h2]
      simp [h2, he.le]
    · rw [max_eq_right (by linarith)]
      refine ⟨⟨fun h3 => by linarith, fun h3 => absurd h3 h2⟩, ?_⟩
      rw [abs_le]; constructor <;> linarith

/-- **C72.** The activation of the coded inverse: exact outside the gap of the activation's range around zero. -/
theorem C72_inverse_activation (y : ℝ) : linloglin (linloglinInv y) = if y < 0 then min y (-Real.log (1 + eps)) else max y (Real.log (1 + eps)) := by
  have he := eps_pos
  have he1 := eps_lt_one
  have hl := log11_pos
  have hle : Real.log (1 + eps) ≤ Real.log 11 := Real.log_le_log (by linarith) (by linarith)
  have hlp : 0 < Real.log (1 + eps) := Real.log_pos (by linarith)
  rw [linloglinInv_eq]
  by_cases h1 : y ≤ -Real.log 11
  · rw [if_pos h1, if_pos (by linarith), min_eq_left (by linarith)]
    unfold linloglin
    by_cases h2 : y = -Real.log 11
    · rw [h2, show (11 * (-Real.log 11 + Real.log 11) - 10 : ℝ) = -10 by ring, if_neg (by norm_num), if_pos (by norm_num), neg_neg, max_eq_left (by linarith)]
      norm_num
    · have : y < -Real.log 11 := lt_of_le_of_ne h1 h2
      rw [if_pos (by linarith)]
      unfold icpt slope; ring
  rw [if_neg h1]
  by_cases h2 : Real.log 11 ≤ y
  · rw [if_pos h2, if_neg (by linarith), max_eq_left (by linarith)]
    unfold linloglin
    rw [if_neg (by linarith), if_neg (by linarith), if_neg (by linarith)]
    unfold icpt slope; ring
  rw [if_neg h2]
  by_cases h3 : y < 0
  · rw [if_pos h3, if_pos h3]
    have hexp : Real.exp (-y) ≤ 11 := by
      rw [← Real.exp_log (show (0 : ℝ) < 11 by norm_num)]
      exact Real.exp_le_exp.2 (by linarith)
    have hexp1 : 1 < Real.exp (-y) := Real.one_lt_exp_iff.2 (by linarith)
    unfold linloglin
    rw [if_neg (by linarith), if_pos (by linarith)]
    rcases le_total eps (-(1 - Real.exp (-y))) with h | h
    · rw [max_eq_left h, show -(1 - Real.exp (-y)) + 1 = Real.exp (-y) by ring, Real.log_exp, neg_neg, min_eq_left]
      have : Real.log (1 + eps) ≤ -y := by
        rw [← Real.log_exp (-y)]
        exact Real.log_le_log (by linarith) (by linarith)
      linarith
    · rw [max_eq_right h, add_comm, min_eq_right]
      have : -y ≤ Real.log (1 + eps) := by
        rw [← Real.log_exp (-y)]
        exact Real.log_le_log (Real.exp_pos _) (by linarith)
      linarith
  · rw [if_neg h3, if_neg h3]
    have hexp : Real.exp y < 11 := by
      rw [← Real.exp_log (show (0 : ℝ) < 11 by norm_num)]
      exact Real.exp_lt_exp.2 (by linarith)
    have hexp1 : 1 ≤ Real.exp y := Real.one_le_exp_iff.2 (by linarith)
    unfold linloglin
    rw [if_neg (by linarith), if_neg (by linarith), if_pos (by linarith)]
    rcases le_total eps (Real.exp y - 1) with h | h
    · rw [max_eq_left h, show Real.exp y - 1 + 1 = Real.exp y by ring, Real.log_exp, max_eq_left]
      rw [← Real.log_exp y]
      exact Real.log_le_log (by linarith) (by linarith)
    · rw [max_eq_right h, add_comm, max_eq_right]
      rw [← Real.log_exp y]
      exact Real.log_le_log (Real.exp_pos _) (by linarith)

theorem act_inv_of_clear {y : ℝ} (h : Real.log (1 + eps) ≤ |y|) : linloglin (linloglinInv y) = y := by
  rw [C72_inverse_activation]
  by_cases h3 : y < 0
  · rw [if_pos h3, min_eq_left]
    rw [abs_of_neg h3] at h; linarith
  · rw [if_neg h3, max_eq_left]
    rwa [abs_of_nonneg (not_lt.1 h3)] at h

theorem inv_act_of_clear {x : ℝ} (h : eps ≤ |x|) : linloglinInv (linloglin x) = x := (C72_activation_exact_iff x).1.2 h

/-- Two different arguments with the same value. -/
theorem act_collision : linloglin 0 = linloglin eps := by
  have he := eps_pos
  have he1 := eps_lt_one
  unfold linloglin
  rw [if_neg (by norm_num), if_neg (by norm_num), if_pos (by norm_num), if_neg (by linarith), if_neg (by linarith), if_pos (by linarith), max_eq_right he.le, max_self]

/-! ### Other activations -/

/-- **C125.** `leaky_relu`: exact if the activation's slope is the layer's `negative_slope`, and that is positive. -/
theorem C125_leaky (s t : ℝ) (hs : 0 < s) (ht : 0 < t) : (∀ x, leakyReluInv t (leakyRelu s x) = x) ↔ s = t := by
  constructor
  · intro h
    have h1 := h (-1)
    unfold leakyRelu leakyReluInv at h1
    rw [if_neg (show ¬ (0 : ℝ) ≤ -1 by norm_num), if_neg (show ¬ (0 : ℝ) ≤ s * -1 by linarith)] at h1
    field_simp at h1
    linarith
  · rintro rfl x
    unfold leakyRelu leakyReluInv
    by_cases hx : 0 ≤ x
    · rw [if_pos hx, if_pos hx]
    · rw [if_neg hx, if_neg (by nlinarith)]
      field_simp

theorem exp_gt_self_of_pos {t : ℝ} (ht : t ≠ 0) : t + 1 < Real.exp t := Real.add_one_lt_exp ht

/-- **C125.** `invcondiff`: exact exactly up to `e^12` in size. -/
theorem C125_invcondiff (x : ℝ) : invcondiffInv (invcondiff x) = x ↔ |x| ≤ Real.exp 12 := by
  have he1 := eps_lt_one
  have h12 : (1 : ℝ) ≤ Real.exp 12 := Real.one_le_exp_iff.2 (by norm_num)
  unfold invcondiff
  by_cases h1 : x < -1
  · rw [if_pos h1, max_eq_left (by linarith), abs_of_neg (by linarith)]
    have hp : 0 < Real.log (-x) := Real.log_pos (by linarith)
    unfold invcondiffInv safeExp
    rw [if_neg (by linarith), if_pos (by linarith), show -(-Real.log (-x) - 1 + 1) = Real.log (-x) by ring, max_eq_left (by linarith)]
    rcases le_total (Real.log (-x)) 12 with h | h
    · rw [min_eq_left h, Real.exp_log (by linarith)]
      have : -x ≤ Real.exp 12 := by rw [← Real.exp_log (show 0 < -x by linarith)]; exact Real.exp_le_exp.2 h
      simp [this]
    · rw [min_eq_right h]
      have : Real.exp 12 ≤ -x := by rw [← Real.exp_log (show 0 < -x by linarith)]; exact Real.exp_le_exp.2 h
      constructor
      · intro h2; linarith
      · intro h2; linarith
  rw [if_neg h1]
  by_cases h2 : 1 < x
  · rw [if_pos h2, max_eq_left (by linarith), abs_of_pos (by linarith)]
    have hp : 0 < Real.log x := Real.log_pos h2
    unfold invcondiffInv safeExp
    rw [if_pos (by linarith), show Real.log x + 1 - 1 = Real.log x by ring, max_eq_left (by linarith)]
    rcases le_total (Real.log x) 12 with h | h
    · rw [min_eq_left h, Real.exp_log (by linarith)]
      have : x ≤ Real.exp 12 := by rw [← Real.exp_log (show 0 < x by linarith)]; exact Real.exp_le_exp.2 h
      simp [this]
    · rw [min_eq_right h]
      have : Real.exp 12 ≤ x := by rw [← Real.exp_log (show 0 < x by linarith)]; exact Real.exp_le_exp.2 h
      constructor
      · intro h2; linarith
      · intro h2; linarith
  · rw [if_neg h2]
    unfold invcondiffInv
    rw [if_neg h2, if_neg h1]
    have : |x| ≤ 1 := abs_le.2 ⟨by linarith, by linarith⟩
    simp [this.trans h12]

theorem exp12_gt : (13 : ℝ) < Real.exp 12 := by
  have := Real.add_one_lt_exp (show (12 : ℝ) ≠ 0 by norm_num)
  linarith

/-- **C125.** Defect: a layer with the identity as activation is inverted by the inverse of another function: right exactly for values between -1 and 1
(and, by accident, at plus or minus `e^12`). -/
theorem C125_identity (x : ℝ) : invcondiffInv (Act.identity.apply x) = x ↔ |x| ≤ 1 ∨ |x| = Real.exp 12 := by
  have h13 := exp12_gt
  show invcondiffInv x = x ↔ _
  have key : ∀ y : ℝ, 1 < y → (safeExp (y - 1) = y ↔ y = Real.exp 12) := by
    intro y hy
    unfold safeExp
    rw [max_eq_left (by linarith)]
    rcases le_total (y - 1) 12 with h | h
    · rw [min_eq_left h]
      have := Real.add_one_lt_exp (show y - 1 ≠ 0 by linarith)
      constructor
      · intro h2; linarith
      · intro h2; linarith
    · rw [min_eq_right h]
      exact eq_comm
  unfold invcondiffInv
  by_cases h1 : 1 < x
  · rw [if_pos h1, abs_of_pos (by linarith), key x h1]
    constructor
    · exact Or.inr
    · rintro (h | h)
      · linarith
      · exact h
  rw [if_neg h1]
  by_cases h2 : x < -1
  · rw [if_pos h2, abs_of_neg (by linarith), ← key (-x) (by linarith), show -(x + 1) = -x - 1 by ring]
    constructor
    · intro h; right; linarith
    · rintro (h | h)
      · linarith
      · linarith
  · rw [if_neg h2]
    simp [abs_le.2 ⟨not_lt.1 h2, not_lt.1 h1⟩]

/-- **C125.** `softplus`: exact exactly when its value is between 1e-6 and 20. -/
theorem C125_softplus (x : ℝ) : softplusInv (softplus x) = x ↔ 1 / 10 ^ 6 ≤ softplus x ∧ softplus x ≤ 20 := by
  have hx := Real.exp_pos x
  have hsp : Real.exp (softplus x) = 1 + Real.exp x := by unfold softplus; exact Real.exp_log (by linarith)
  have hgt : x < softplus x := by
    rw [← Real.exp_lt_exp, hsp]; linarith
  unfold softplusInv
  rcases le_total (1 / 10 ^ 6) (softplus x) with h | h
  · rw [max_eq_right h]
    by_cases h2 : 20 < softplus x
    · rw [if_pos h2]
      constructor
      · intro h3; linarith
      · intro h3; linarith [h3.2]
    · rw [if_neg h2, hsp, show 1 + Real.exp x - 1 = Real.exp x by ring, Real.log_exp]
      simp only [true_iff]
      exact ⟨h, not_lt.1 h2⟩
  · rw [max_eq_left h, if_neg (by norm_num)]
    constructor
    · intro h3
      have h4 : Real.exp (Real.log (Real.exp (1 / 10 ^ 6) - 1)) = Real.exp x := by rw [h3]
      have h5 : 1 < Real.exp ((1 : ℝ) / 10 ^ 6) := Real.one_lt_exp_iff.2 (by norm_num)
      rw [Real.exp_log (by linarith)] at h4
      have h6 : Real.exp ((1 : ℝ) / 10 ^ 6) = Real.exp (softplus x) := by rw [hsp]; linarith
      have := Real.exp_injective h6
      exact ⟨this.le, by rw [← this]; norm_num⟩
    · intro h3
      have : softplus x = 1 / 10 ^ 6 := le_antisymm h h3.1
      rw [← this, hsp, show 1 + Real.exp x - 1 = Real.exp x by ring, Real.log_exp]

/-- **C125.** Of all activations only the leaky rectifier with the slope of the layer is inverted exactly everywhere; unknown ones raise NotImplementedError. -/
theorem C125_exact_activations (slope : ℝ) (hs : 0 < slope) (a : Act) (ha : ∀ s, a = .leakyRelu s → 0 < s) :
    (∃ f, a.invert slope = .ok f ∧ ∀ x, f (a.apply x) = x) ↔ a = .leakyRelu slope := by
  constructor
  · rintro ⟨f, h1, h2⟩
    cases a with
    | leakyRelu s =>
      injection h1 with h1; subst h1
      rw [(C125_leaky s slope (ha s rfl) hs).1 h2]
    | softplus =>
      injection h1 with h1; subst h1
      have h3 := ((C125_softplus 20).1 (h2 20)).2
      have h4 : (20 : ℝ) < softplus 20 := by
        unfold softplus
        rw [Real.lt_log_iff_exp_lt (by positivity)]
        linarith
      exact absurd h3 (not_le.2 h4)
    | invcondiff =>
      injection h1 with h1; subst h1
      have h3 := (C125_invcondiff (Real.exp 13)).1 (h2 _)
      rw [abs_of_pos (Real.exp_pos _), Real.exp_le_exp] at h3
      norm_num at h3
    | identity =>
      injection h1 with h1; subst h1
      have h13 := exp12_gt
      rcases (C125_identity 2).1 (h2 2) with h3 | h3
      · rw [abs_of_pos (by norm_num)] at h3; norm_num at h3
      · rw [abs_of_pos (by norm_num)] at h3; linarith
    | linloglin =>
      injection h1 with h1; subst h1
      have h3 := (C72_activation_exact_iff 0).1.1 (h2 0)
      rw [abs_zero] at h3
      exact absurd h3 (not_le.2 eps_pos)
    | other => cases h1
  · rintro rfl
    exact ⟨_, rfl, (C125_leaky slope slope hs hs).2 rfl⟩

end PyF.INN
