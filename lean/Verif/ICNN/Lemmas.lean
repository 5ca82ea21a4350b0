import Verif.ICNN.Model
import Verif.ICNN.Spec
import Mathlib.Analysis.Convex.Deriv
import Mathlib.Analysis.SpecialFunctions.Log.Deriv
import Mathlib.Analysis.SpecialFunctions.ExpDeriv
import Mathlib.Algebra.Order.BigOperators.Group.Finset
import Mathlib.Tactic.Linarith
import Mathlib.Tactic.Ring
import Mathlib.Tactic.Positivity
import Mathlib.Tactic.FieldSimp

namespace PyF.ICNN

open PyF

/-! ### Closure properties -/

theorem ConvexIn.const (a : ℝ) : ConvexIn (fun _ => a) := by
  intro y y' t _ _; simp only; nlinarith

theorem ConvexIn.add {f g : (ℕ → ℝ) → ℝ} (hf : ConvexIn f) (hg : ConvexIn g) : ConvexIn (fun y => f y + g y) := by
  intro y y' t h0 h1
  have a := hf y y' t h0 h1
  have b := hg y y' t h0 h1
  simp only; nlinarith

theorem ConvexIn.sum {f : ℕ → (ℕ → ℝ) → ℝ} (n : ℕ) (hf : ∀ i, ConvexIn (f i)) : ConvexIn (fun y => ∑ i ∈ Finset.range n, f i y) := by
  induction n with
  | zero => simpa using ConvexIn.const 0
  | succ n ih =>
    have := ConvexIn.add ih (hf n)
    simpa [Finset.sum_range_succ] using this

theorem ConvexIn.mul {f : (ℕ → ℝ) → ℝ} (hf : ConvexIn f) {a : ℝ} (ha : 0 ≤ a) : ConvexIn (fun y => f y * a) := by
  intro y y' t h0 h1
  have := mul_le_mul_of_nonneg_right (hf y y' t h0 h1) ha
  simp only; nlinarith

/-- An activation that keeps convexity. -/
def CvxMono (g : ℝ → ℝ) : Prop := Monotone g ∧ ∀ a b t : ℝ, 0 ≤ t → t ≤ 1 → g ((1 - t) * a + t * b) ≤ (1 - t) * g a + t * g b

theorem ConvexIn.comp {f : (ℕ → ℝ) → ℝ} {g : ℝ → ℝ} (hg : CvxMono g) (hf : ConvexIn f) : ConvexIn (fun y => g (f y)) := by
  intro y y' t h0 h1
  exact (hg.1 (hf y y' t h0 h1)).trans (hg.2 _ _ t h0 h1)

theorem ConvexIn.quasi {f : (ℕ → ℝ) → ℝ} (hf : ConvexIn f) : QuasiConvexIn f := by
  intro y y' t h0 h1
  refine (hf y y' t h0 h1).trans ?_
  have ha := mul_le_mul_of_nonneg_left (le_max_left (f y) (f y')) (sub_nonneg.2 h1)
  have hb := mul_le_mul_of_nonneg_left (le_max_right (f y) (f y')) h0
  nlinarith

theorem QuasiConvexIn.comp {f : (ℕ → ℝ) → ℝ} {g : ℝ → ℝ} (hg : Monotone g) (hf : QuasiConvexIn f) : QuasiConvexIn (fun y => g (f y)) := by
  intro y y' t h0 h1
  have := hg (hf y y' t h0 h1)
  rwa [hg.map_max] at this

theorem augY_convex (c : Cfg) (i : ℕ) (a : ℝ) : ConvexIn (fun y => augY c y i * a) := by
  intro y y' t _ _
  simp only [augY, seg]
  split
  · split
    · nlinarith
    · nlinarith
  · nlinarith

theorem relu_nonneg (v : ℝ) : 0 ≤ relu v := le_max_right _ _

theorem relu_cvxMono : CvxMono relu := by
  refine ⟨fun a b h => max_le_max h le_rfl, ?_⟩
  intro a b t h0 h1
  have ha := mul_le_mul_of_nonneg_left (le_max_left a 0) (sub_nonneg.2 h1)
  have hb := mul_le_mul_of_nonneg_left (le_max_left b 0) h0
  have ha' := mul_nonneg (sub_nonneg.2 h1) (le_max_right a 0)
  have hb' := mul_nonneg h0 (le_max_right b 0)
  unfold relu
  exact max_le (by linarith) (by linarith)

theorem hasDerivAt_softplus (x : ℝ) : HasDerivAt softplus (Real.sigmoid x) x := by
  have h1 : HasDerivAt (fun v : ℝ => 1 + Real.exp v) (Real.exp x) x := by
    simpa using (Real.hasDerivAt_exp x).const_add 1
  have h2 := h1.log (by positivity)
  have : Real.exp x / (1 + Real.exp x) = Real.sigmoid x := by
    rw [Real.sigmoid_def, Real.exp_neg]
    have := Real.exp_pos x
    field_simp
    ring
  rw [this] at h2
  exact h2

theorem softplus_cvxMono : CvxMono softplus := by
  have hd : Differentiable ℝ softplus := fun x => (hasDerivAt_softplus x).differentiableAt
  have hder : deriv softplus = Real.sigmoid := funext fun x => (hasDerivAt_softplus x).deriv
  refine ⟨?_, ?_⟩
  · exact monotone_of_deriv_nonneg hd (fun x => by rw [hder]; exact Real.sigmoid_nonneg x)
  · intro a b t h0 h1
    have hc : ConvexOn ℝ Set.univ softplus := by
      apply Monotone.convexOn_univ_of_deriv hd
      rw [hder]; exact Real.sigmoid_monotone
    have := hc.2 (Set.mem_univ a) (Set.mem_univ b) (sub_nonneg.2 h1) h0 (by ring)
    simpa [smul_eq_mul] using this

/-! ### One layer and the loop -/

theorem pre_convex (c : Cfg) (p : LayerP) (hp : ∀ i j, 0 ≤ p.wz.kernel i j) (nu : ℕ) (u : ℕ → ℝ) (dz : ℕ) (Z : (ℕ → ℝ) → ℕ → ℝ)
    (hZ : ∀ i, ConvexIn (fun y => Z y i)) (j : ℕ) : ConvexIn (fun y => pre c p nu u dz (Z y) y j) := by
  unfold pre denseNoBias
  refine ConvexIn.add (ConvexIn.add ?_ ?_) (ConvexIn.const _)
  · refine ConvexIn.sum (f := fun i y => Z y (bidx dz i) * relu (dense nu p.wzu u (bidx c.lat i)) * p.wz.kernel i j) _ (fun i => ?_)
    exact ((hZ _).mul (relu_nonneg _)).mul (hp i j)
  · refine ConvexIn.sum (f := fun i y => augY c y (bidx (yDim c) i) * c.recAct (dense nu p.wyu u (bidx c.ny i)) * p.wy.kernel i j) _ (fun i => ?_)
    have := augY_convex c (bidx (yDim c) i) (c.recAct (dense nu p.wyu u (bidx c.ny i)) * p.wy.kernel i j)
    simpa only [mul_assoc] using this

theorem forward_convex (c : Cfg) (hz : c.zb = none) (hact : CvxMono c.act) (hid : ℕ) (lays : List LayerP)
    (hp : ∀ p ∈ lays, ∀ i j, 0 ≤ p.wz.kernel i j) (nu : ℕ) (u : ℕ → ℝ) (dz : ℕ) (Z : (ℕ → ℝ) → ℕ → ℝ)
    (hZ : ∀ i, ConvexIn (fun y => Z y i)) (j : ℕ) : ConvexIn (fun y => forward c hid lays nu u dz (Z y) y j) := by
  induction lays generalizing nu u dz Z with
  | nil => exact hZ j
  | cons p ps ih =>
    cases ps with
    | nil =>
      simp only [forward, hz, bound]
      exact pre_convex c p (hp p List.mem_cons_self) nu u dz Z hZ j
    | cons q qs =>
      simp only [forward]
      exact ih (fun r hr => hp r (List.mem_cons_of_mem _ hr)) _ _ _ (fun y j => c.act (pre c p nu u dz (Z y) y j))
        (fun i => ConvexIn.comp hact (pre_convex c p (hp p List.mem_cons_self) nu u dz Z hZ i))

theorem bound_mono (zb : Option (ℝ × ℝ)) (h : ∀ lo hi, zb = some (lo, hi) → lo ≤ hi) : Monotone (bound zb) := by
  intro a b hab
  cases zb with
  | none => exact hab
  | some r =>
    obtain ⟨lo, hi⟩ := r
    have := h lo hi rfl
    simp only [bound]
    have := mul_le_mul_of_nonneg_right (Real.sigmoid_monotone hab) (sub_nonneg.2 this)
    linarith

theorem forward_bound (c : Cfg) (hid : ℕ) (lays : List LayerP) (hne : lays ≠ []) (nu : ℕ) (u : ℕ → ℝ) (dz : ℕ) (z y : ℕ → ℝ) (j : ℕ) :
    forward c hid lays nu u dz z y j = bound c.zb (forward { c with zb := none } hid lays nu u dz z y j) := by
  induction lays generalizing nu u dz z with
  | nil => exact absurd rfl hne
  | cons p ps ih =>
    cases ps with
    | nil => rfl
    | cons q qs =>
      simp only [forward]
      rw [ih (by simp)]
      rfl

theorem MonotoneIn.sum {f : ℕ → (ℕ → ℝ) → ℝ} (n : ℕ) (hf : ∀ i, MonotoneIn (f i)) : MonotoneIn (fun y => ∑ i ∈ Finset.range n, f i y) :=
  fun y y' h => Finset.sum_le_sum (fun i _ => hf i y y' h)

theorem MonotoneIn.mul {f : (ℕ → ℝ) → ℝ} (hf : MonotoneIn f) {a : ℝ} (ha : 0 ≤ a) : MonotoneIn (fun y => f y * a) :=
  fun y y' h => mul_le_mul_of_nonneg_right (hf y y' h) ha

theorem MonotoneIn.comp {f : (ℕ → ℝ) → ℝ} {g : ℝ → ℝ} (hg : Monotone g) (hf : MonotoneIn f) : MonotoneIn (fun y => g (f y)) :=
  fun y y' h => hg (hf y y' h)

theorem pre_monotone (c : Cfg) (haug : c.aug = false) (hrec : ∀ v, 0 ≤ c.recAct v) (p : LayerP) (hp : ∀ i j, 0 ≤ p.wz.kernel i j)
    (hq : ∀ i j, 0 ≤ p.wy.kernel i j) (nu : ℕ) (u : ℕ → ℝ) (dz : ℕ) (Z : (ℕ → ℝ) → ℕ → ℝ)
    (hZ : ∀ i, MonotoneIn (fun y => Z y i)) (j : ℕ) : MonotoneIn (fun y => pre c p nu u dz (Z y) y j) := by
  intro y y' h
  simp only [pre, denseNoBias]
  have h1 := MonotoneIn.sum (f := fun i y => Z y (bidx dz i) * relu (dense nu p.wzu u (bidx c.lat i)) * p.wz.kernel i j) (bdim dz c.lat)
    (fun i => ((hZ _).mul (relu_nonneg _)).mul (hp i j)) y y' h
  have h2 := MonotoneIn.sum (f := fun i y => augY c y (bidx (yDim c) i) * c.recAct (dense nu p.wyu u (bidx c.ny i)) * p.wy.kernel i j) (bdim (yDim c) c.ny)
    (fun i => MonotoneIn.mul (MonotoneIn.mul (fun y y' h => by simpa [augY, haug] using h _) (hrec _)) (hq i j)) y y' h
  simp only at h1 h2
  linarith

theorem forward_monotone (c : Cfg) (haug : c.aug = false) (hrec : ∀ v, 0 ≤ c.recAct v) (hact : Monotone c.act)
    (hzb : ∀ lo hi, c.zb = some (lo, hi) → lo ≤ hi) (hid : ℕ) (lays : List LayerP)
    (hp : ∀ p ∈ lays, ∀ i j, 0 ≤ p.wz.kernel i j) (hq : ∀ p ∈ lays, ∀ i j, 0 ≤ p.wy.kernel i j)
    (nu : ℕ) (u : ℕ → ℝ) (dz : ℕ) (Z : (ℕ → ℝ) → ℕ → ℝ)
    (hZ : ∀ i, MonotoneIn (fun y => Z y i)) (j : ℕ) : MonotoneIn (fun y => forward c hid lays nu u dz (Z y) y j) := by
  induction lays generalizing nu u dz Z with
  | nil => exact hZ j
  | cons p ps ih =>
    have hpre := pre_monotone c haug hrec p (hp p List.mem_cons_self) (hq p List.mem_cons_self) nu u dz Z hZ
    cases ps with
    | nil => exact MonotoneIn.comp (bound_mono _ hzb) (hpre j)
    | cons q qs =>
      simp only [forward]
      exact ih (fun r hr => hp r (List.mem_cons_of_mem _ hr)) (fun r hr => hq r (List.mem_cons_of_mem _ hr)) _ _ _
        (fun y j => c.act (pre c p nu u dz (Z y) y j)) (fun i => MonotoneIn.comp hact (hpre i))

end PyF.ICNN
