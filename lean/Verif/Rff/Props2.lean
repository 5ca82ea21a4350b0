import Verif.Rff.Model
import Mathlib.Tactic.Ring
import Mathlib.Tactic.Linarith
import Mathlib.Tactic.FieldSimp
import Mathlib.Algebra.BigOperators.Fin
import Mathlib.Algebra.Order.BigOperators.Ring.Finset

namespace PyF.Rff
open PyF

/-! ### C172: additive stages that share their features -/

section ols
variable {X : Type} {D : Nat}

/-- The linear model on given features. -/
def lin (φ : X → Fin D → ℝ) (w : Fin D → ℝ) (c : ℝ) (x : X) : ℝ := (∑ i, φ x i * w i) + c

/-- Sum of squared errors of a linear model. -/
def sse (φ : X → Fin D → ℝ) (rows : List X) (err : List ℝ) (w : Fin D → ℝ) (c : ℝ) : ℝ :=
  (List.zipWith (fun x e => (e - lin φ w c x) ^ 2) rows err).sum

/-- It minimises the sum of squared errors. -/
def Minimises (φ : X → Fin D → ℝ) (rows : List X) (err : List ℝ) (w : Fin D → ℝ) (c : ℝ) : Prop :=
  ∀ w' c', sse φ rows err w c ≤ sse φ rows err w' c'

/-- `sklearn.linear_model.LinearRegression` on given features: least squares, of least norm among the minimisers. -/
def IsOLS (φ : X → Fin D → ℝ) (L : Boost.Learner X ℝ) : Prop :=
  ∀ rows err, ∃ w c, (∀ x, L rows err x = lin φ w c x) ∧ Minimises φ rows err w c ∧
    ∀ w' c', Minimises φ rows err w' c' → ∑ i, w i ^ 2 ≤ ∑ i, w' i ^ 2

theorem lin_add (φ : X → Fin D → ℝ) (w w' : Fin D → ℝ) (c c' : ℝ) (x : X) : lin φ (fun i => w i + w' i) (c + c') x = lin φ w c x + lin φ w' c' x := by
  unfold lin
  simp only [mul_add, Finset.sum_add_distrib]
  ring

theorem sse_residual (φ : X → Fin D → ℝ) (w w' : Fin D → ℝ) (c c' : ℝ) (rows : List X) (err : List ℝ) :
    sse φ rows (List.zipWith (fun e h => e - h) err (rows.map (lin φ w c))) w' c' = sse φ rows err (fun i => w i + w' i) (c + c') := by
  unfold sse
  induction rows generalizing err with
  | nil => simp
  | cons x rows ih =>
    cases err with
    | nil => simp
    | cons e err =>
      simp only [List.map_cons, List.zipWith_cons_cons, List.sum_cons]
      rw [ih err, lin_add]
      ring

theorem sse_const (φ : X → Fin D → ℝ) (c : ℝ) (rows : List X) (err : List ℝ) :
    sse φ rows err (fun _ => 0) c = sse φ rows err (fun _ => 0) 0 - 2 * c * (List.zipWith (fun _ e => e) rows err).sum + c ^ 2 * (List.zipWith (fun _ e => e) rows err).length := by
  unfold sse
  induction rows generalizing err with
  | nil => simp
  | cons x rows ih =>
    cases err with
    | nil => simp
    | cons e err =>
      simp only [List.zipWith_cons_cons, List.sum_cons, List.length_cons]
      rw [ih err]
      simp only [lin, mul_zero, Finset.sum_const_zero, zero_add, Nat.cast_add, Nat.cast_one]
      ring

/-- A stage that meets a residual with no linear part left learns the zero function. -/
theorem ols_zero (φ : X → Fin D → ℝ) (L : Boost.Learner X ℝ) (h : IsOLS φ L) (rows : List X) (err : List ℝ) (hr : rows ≠ []) (he : err ≠ [])
    (h0 : Minimises φ rows err (fun _ => 0) 0) (x : X) : L rows err x = 0 := by
  obtain ⟨w, c, hL, hm, hn⟩ := h rows err
  have hw : ∀ i, w i = 0 := by
    have h1 := hn _ _ h0
    simp only [ne_eq, OfNat.ofNat_ne_zero, not_false_eq_true, zero_pow, Finset.sum_const_zero] at h1
    have h2 : ∑ i, w i ^ 2 = 0 := le_antisymm h1 (Finset.sum_nonneg (fun i _ => sq_nonneg _))
    intro i
    have := (Finset.sum_eq_zero_iff_of_nonneg (fun i _ => sq_nonneg (w i))).1 h2 i (Finset.mem_univ i)
    exact pow_eq_zero_iff (two_ne_zero) |>.1 this
  have hw' : w = fun _ => 0 := funext hw
  subst hw'
  have hlen : 0 < (List.zipWith (fun (_ : X) (e : ℝ) => e) rows err).length := by
    rw [List.length_zipWith]
    exact Nat.lt_min.2 ⟨List.length_pos_iff.2 hr, List.length_pos_iff.2 he⟩
  have hlen' : (0 : ℝ) < ((List.zipWith (fun (_ : X) (e : ℝ) => e) rows err).length : ℝ) := by exact_mod_cast hlen
  set n : ℝ := ((List.zipWith (fun (_ : X) (e : ℝ) => e) rows err).length : ℝ) with hn'
  set S : ℝ := (List.zipWith (fun (_ : X) (e : ℝ) => e) rows err).sum with hS
  have hS0 : S = 0 := by
    have := h0 (fun _ => 0) (S / n)
    rw [sse_const φ (S / n)] at this
    have h3 : 2 * (S / n) * S ≤ (S / n) ^ 2 * n := by linarith
    have h4 : (S / n) ^ 2 * n = S ^ 2 / n := by field_simp
    have h5 : 2 * (S / n) * S = 2 * (S ^ 2 / n) := by ring
    rw [h4, h5] at h3
    have h6 : S ^ 2 / n ≤ 0 := by linarith
    have h7 : S ^ 2 ≤ 0 := by
      by_contra hc
      have := div_pos (not_le.1 hc) hlen'
      linarith
    exact pow_eq_zero_iff two_ne_zero |>.1 (le_antisymm h7 (sq_nonneg S))
  have hc : c = 0 := by
    have := hm (fun _ => 0) 0
    rw [sse_const φ c, ← hS, ← hn', hS0] at this
    have h6 : c ^ 2 * n ≤ 0 := by linarith
    have h7 : c ^ 2 ≤ 0 := by
      by_contra hcc
      have := mul_pos (not_le.1 hcc) hlen'
      linarith
    exact pow_eq_zero_iff two_ne_zero |>.1 (le_antisymm h7 (sq_nonneg c))
  rw [hL, hc]
  simp [lin]

theorem sub_zero_list (rows : List X) (err : List ℝ) (hlen : err.length = rows.length) (p : X → ℝ) (hp : ∀ x, p x = 0) :
    List.zipWith (fun e h => e - h) err (rows.map p) = err := by
  induction rows generalizing err with
  | nil => cases err with
    | nil => rfl
    | cons _ _ => cases hlen
  | cons x rows ih => cases err with
    | nil => cases hlen
    | cons e err =>
      simp only [List.map_cons, List.zipWith_cons_cons, hp, sub_zero]
      rw [ih err (by simpa using hlen)]

theorem stages_zero (φ : X → Fin D → ℝ) (ms : List (Boost.Learner X ℝ)) (hms : ∀ m ∈ ms, IsOLS φ m) (rows : List X) (err : List ℝ) (hr : rows ≠ [])
    (hlen : err.length = rows.length) (h0 : Minimises φ rows err (fun _ => 0) 0) : ∀ p ∈ (Boost.fitLoop rows ms err).1, ∀ x, p x = 0 := by
  have he : err ≠ [] := by
    intro e
    rw [e] at hlen
    exact hr (List.length_eq_zero_iff.1 hlen.symm)
  induction ms with
  | nil => intro p hp; cases hp
  | cons m ms ih =>
    intro p hp
    have hz := ols_zero φ m (hms m (by simp)) rows err hr he h0
    simp only [Boost.fitLoop] at hp
    rw [sub_zero_list rows err hlen _ hz] at hp
    rcases List.mem_cons.1 hp with rfl | hp
    · exact hz
    · exact ih (fun q hq => hms q (List.mem_cons_of_mem _ hq)) p hp

/-- C172 (later stages): when the stages of an additive RFF regression share one matrix `W` and one `b` (both passed to the constructor) and the base model is least squares,
every stage after the first predicts 0 everywhere. -/
theorem C172_later_zero (φ : X → Fin D → ℝ) (m : Boost.Learner X ℝ) (ms : List (Boost.Learner X ℝ)) (hm : IsOLS φ m) (hms : ∀ q ∈ ms, IsOLS φ q)
    (rows : List X) (y : List ℝ) (hr : rows ≠ []) (hlen : y.length = rows.length) :
    ∀ p ∈ (Boost.fitLoop rows (m :: ms) y).1.tail, ∀ x, p x = 0 := by
  obtain ⟨w, c, hL, hmin, -⟩ := hm rows y
  have hmap : rows.map (m rows y) = rows.map (lin φ w c) := List.map_congr_left (fun x _ => hL x)
  intro p hp
  simp only [Boost.fitLoop, List.tail_cons] at hp
  refine stages_zero φ ms hms rows _ hr ?_ ?_ p hp
  · rw [List.length_zipWith, List.length_map, hlen, min_self]
  · rw [hmap]
    intro w' c'
    rw [sse_residual, sse_residual]
    have h1 : (fun i => w i + (fun _ => (0 : ℝ)) i) = w := by funext i; simp
    rw [h1, add_zero]
    exact hmin _ _

theorem foldl_zero (ps : List (X → ℝ)) (h : ∀ p ∈ ps, ∀ x, p x = 0) (x : X) (a : ℝ) : ps.foldl (fun acc p => acc + p x) a = a := by
  induction ps generalizing a with
  | nil => rfl
  | cons p ps ih =>
    rw [List.foldl_cons, h p (by simp), add_zero]
    exact ih (fun q hq => h q (List.mem_cons_of_mem _ hq)) a

/-- C172 (forecast, defect): such a regression forecasts the same for every number of stages, whatever the scaler: `n_models` has no effect. -/
theorem C172_n_models (φ : X → Fin D → ℝ) (m : Boost.Learner X ℝ) (ms : List (Boost.Learner X ℝ)) (hm : IsOLS φ m) (hms : ∀ q ∈ ms, IsOLS φ q)
    (mk : List X → X → X) (rows : List X) (y : List ℝ) (hr : rows ≠ []) (hlen : y.length = rows.length) (x : X) :
    Boost.addPredict (Boost.addFit mk (m :: ms) rows y).1 (Boost.addFit mk (m :: ms) rows y).2.1 x =
      Boost.addPredict (Boost.addFit mk [m] rows y).1 (Boost.addFit mk [m] rows y).2.1 x := by
  have hz := C172_later_zero φ m ms hm hms (rows.map (mk rows)) y (by simpa using hr) (by simpa using hlen)
  simp only [Boost.addFit, Boost.addPredict]
  simp only [Boost.fitLoop, List.tail_cons] at hz
  simp only [Boost.fitLoop, List.foldl_cons, List.foldl_nil]
  exact foldl_zero _ hz _ _

end ols

/-! ### C173: the scaler sees the validation rows -/

theorem sd_ne (l : List ℝ) : sd l ≠ 0 := by
  unfold sd
  split
  · exact one_ne_zero
  · rename_i h
    intro e
    have hv : 0 ≤ var l := by
      unfold var
      apply div_nonneg _ (Nat.cast_nonneg _)
      apply List.sum_nonneg
      intro z hz
      obtain ⟨_, -, rfl⟩ := List.mem_map.1 hz
      exact sq_nonneg _
    exact h ((Real.sqrt_eq_zero hv).1 e)

theorem sum_affine (l : List ℝ) (m s : ℝ) : (l.map (fun z => (z - m) / s)).sum = (l.sum - m * l.length) / s := by
  induction l with
  | nil => simp
  | cons a l ih =>
    rw [List.map_cons, List.sum_cons, ih, List.sum_cons, List.length_cons]
    push_cast
    ring

theorem mean_affine (l : List ℝ) (hl : l ≠ []) (m s : ℝ) : mean (l.map (fun z => (z - m) / s)) = (mean l - m) / s := by
  have hn : (l.length : ℝ) ≠ 0 := by
    have := List.length_pos_iff.2 hl
    positivity
  unfold mean
  rw [sum_affine, List.length_map]
  rw [div_div, mul_comm s, ← div_div]
  congr 1
  field_simp

/-- C173 (scaler): over all the rows the scaled column has mean 0, and variance 1 unless the column is constant. -/
theorem C173_standard (l : List ℝ) (hl : l ≠ []) : mean (l.map (scale l)) = 0 ∧ (var l ≠ 0 → var (l.map (scale l)) = 1) := by
  have h1 : mean (l.map (scale l)) = 0 := by
    have := mean_affine l hl (mean l) (sd l)
    rw [sub_self, zero_div] at this
    exact this
  refine ⟨h1, fun hv => ?_⟩
  have hv0 : 0 ≤ var l := by
    unfold var
    apply div_nonneg _ (Nat.cast_nonneg _)
    apply List.sum_nonneg
    intro z hz
    obtain ⟨_, -, rfl⟩ := List.mem_map.1 hz
    exact sq_nonneg _
  have hs : sd l ^ 2 = var l := by
    unfold sd
    rw [if_neg hv, Real.sq_sqrt hv0]
  have hkey : var (l.map (scale l)) = var l / sd l ^ 2 := by
    unfold var
    rw [h1, List.map_map, List.length_map]
    have : ∀ k : List ℝ, (k.map ((fun z => (z - 0) ^ 2) ∘ scale l)).sum = (k.map (fun z => (z - mean l) ^ 2)).sum / sd l ^ 2 := by
      intro k
      induction k with
      | nil => simp
      | cons a k ih =>
        rw [List.map_cons, List.sum_cons, ih, List.map_cons, List.sum_cons]
        simp only [Function.comp, scale, sub_zero]
        rw [div_pow]
        ring
    rw [this l]
    ring
  rw [hkey, hs]
  exact div_self hv

/-- C173 (leak, defect): a training column with two different values is scaled the same with two different validation parts iff the two whole columns have the same mean
and the same scale. Otherwise the features the regression is trained on depend on the validation rows. -/
theorem C173_leak_iff (tr v v' : List ℝ) (a b : ℝ) (ha : a ∈ tr) (hb : b ∈ tr) (hab : a ≠ b) :
    trainColumn tr v = trainColumn tr v' ↔ mean (tr ++ v) = mean (tr ++ v') ∧ sd (tr ++ v) = sd (tr ++ v') := by
  constructor
  · intro h
    unfold trainColumn at h
    have h' := List.map_inj_left.1 h
    have e1 := h' a ha
    have e2 := h' b hb
    unfold scale at e1 e2
    have s1 := sd_ne (tr ++ v)
    have s2 := sd_ne (tr ++ v')
    rw [div_eq_div_iff s1 s2] at e1 e2
    have hs : sd (tr ++ v) = sd (tr ++ v') := by
      have : (a - b) * (sd (tr ++ v') - sd (tr ++ v)) = 0 := by linear_combination e1 - e2
      rcases mul_eq_zero.1 this with h0 | h0
      · exact absurd (sub_eq_zero.1 h0) hab
      · exact (sub_eq_zero.1 h0).symm
    refine ⟨?_, hs⟩
    rw [hs] at e1
    have := mul_right_cancel₀ s2 e1
    linarith
  · rintro ⟨h1, h2⟩
    unfold trainColumn
    apply List.map_congr_left
    intro z _
    unfold scale
    rw [h1, h2]

/-- C173 (not centred): the scaled training column has mean 0 iff the training rows have the same mean as all the rows. -/
theorem C173_centred_iff (tr v : List ℝ) (htr : tr ≠ []) : mean (trainColumn tr v) = 0 ↔ mean tr = mean (tr ++ v) := by
  have := mean_affine tr htr (mean (tr ++ v)) (sd (tr ++ v))
  have e : mean (trainColumn tr v) = (mean tr - mean (tr ++ v)) / sd (tr ++ v) := this
  rw [e, div_eq_zero_iff]
  constructor
  · rintro (h | h)
    · linarith
    · exact absurd h (sd_ne _)
  · intro h
    left
    linarith

end PyF.Rff
