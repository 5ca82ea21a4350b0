import Verif.FkRun.Lemmas
import Mathlib.LinearAlgebra.Matrix.Notation
import Mathlib.Tactic.Positivity
import Mathlib.Algebra.BigOperators.Fin
import Mathlib.Algebra.Order.BigOperators.Group.List
import Mathlib.Algebra.BigOperators.Field

/-!
C338: the noise matrices `FK_multi` estimates from its own weights.
-/

namespace PyF.FkRun
open PyF

variable {k : ℕ}

/-- A correlation matrix: symmetric, ones on the diagonal, entries between -1 and 1, no negative quadratic form. -/
def IsCorr (M : Mat k) : Prop :=
  (∀ a b, M a b = M b a) ∧ (∀ a, M a a = 1) ∧ (∀ a b, |M a b| ≤ 1) ∧ ∀ z : Vec k, 0 ≤ ∑ a, ∑ b, z a * M a b * z b

theorem colCov_nonneg (l : List (Vec k)) (hl : 2 ≤ l.length) (a : Fin k) : 0 ≤ colCov l a a := by
  unfold colCov
  apply div_nonneg
  · apply List.sum_nonneg
    intro x hx
    obtain ⟨v, _, rfl⟩ := List.mem_map.1 hx
    exact mul_self_nonneg _
  · have : (2 : ℝ) ≤ (l.length : ℝ) := by exact_mod_cast hl
    linarith

theorem colCov_short (l : List (Vec k)) (hl : l.length < 2) (a : Fin k) : colCov l a a = 0 := by
  match l, hl with
  | [], _ => simp [colCov]
  | [v], _ => simp [colCov]

theorem colCov_comm (l : List (Vec k)) (a b : Fin k) : colCov l a b = colCov l b a := by
  unfold colCov
  congr 2
  apply List.map_congr_left
  intro v _
  ring

/-- A quadratic form of the covariances is a sum of squares. -/
theorem quad (l : List (Vec k)) (z : Vec k) :
    ∑ a, ∑ b, z a * colCov l a b * z b = (l.map (fun v => (∑ a, z a * (v a - colMean l a)) * (∑ a, z a * (v a - colMean l a)))).sum / (l.length - 1) := by
  have key : ∀ (μ : Vec k) (t : List (Vec k)), ∑ a, ∑ b, z a * (t.map (fun v => (v a - μ a) * (v b - μ b))).sum * z b
      = (t.map (fun v => (∑ a, z a * (v a - μ a)) * (∑ a, z a * (v a - μ a)))).sum := by
    intro μ t
    induction t with
    | nil => simp
    | cons v t ih =>
      simp only [List.map_cons, List.sum_cons, mul_add, add_mul, Finset.sum_add_distrib, ih]
      congr 1
      rw [Finset.sum_mul_sum]
      exact Finset.sum_congr rfl fun a _ => Finset.sum_congr rfl fun b _ => by ring
  rw [← key (colMean l) l, Finset.sum_div]
  refine Finset.sum_congr rfl fun a _ => ?_
  rw [Finset.sum_div]
  refine Finset.sum_congr rfl fun b _ => ?_
  unfold colCov
  ring

theorem corrcoef_some (h : List (Option (Vec k))) (M : Mat k) (hM : corrcoef h = some M) :
    ∃ l : List (Vec k), h = l.map some ∧ (∀ a, 0 < colCov l a a) ∧
      ∀ a b, M a b = colCov l a b / Real.sqrt (colCov l a a) / Real.sqrt (colCov l b b) := by
  unfold corrcoef at hM
  have hmap : ∀ (h : List (Option (Vec k))) l, h.mapM id = some l → h = l.map some := by
    intro h
    induction h with
    | nil => intro l hl; simp at hl; subst hl; rfl
    | cons o h ih =>
      intro l hl
      simp only [List.mapM_cons, id] at hl
      cases o with
      | none => simp at hl
      | some v =>
        cases ht : h.mapM id with
        | none => rw [ht] at hl; simp at hl
        | some t =>
          rw [ht] at hl
          simp at hl
          subst hl
          rw [ih t ht]
          rfl
  cases hl : h.mapM id with
  | none => rw [hl] at hM; cases hM
  | some l =>
    rw [hl] at hM
    simp only at hM
    split_ifs at hM with hz
    injection hM with hM
    refine ⟨l, hmap h l hl, ?_, fun a b => by rw [← hM]⟩
    intro a
    have hne : colCov l a a ≠ 0 := fun e => hz ⟨a, e⟩
    have h2 : 2 ≤ l.length := by
      by_contra hlt
      exact hne (colCov_short l (by omega) a)
    exact lt_of_le_of_ne (colCov_nonneg l h2 a) (Ne.symm hne)

theorem corrcoef_isCorr (h : List (Option (Vec k))) (M : Mat k) (hM : corrcoef h = some M) : IsCorr M := by
  obtain ⟨l, _, hpos, hE⟩ := corrcoef_some h M hM
  have hsq : ∀ a, 0 < Real.sqrt (colCov l a a) := fun a => Real.sqrt_pos.2 (hpos a)
  have hsym : ∀ a b, M a b = M b a := by
    intro a b
    rw [hE, hE, colCov_comm l a b]
    rw [div_div, div_div, mul_comm]
  have hdiag : ∀ a, M a a = 1 := by
    intro a
    rw [hE, div_div, Real.mul_self_sqrt (hpos a).le, div_self (hpos a).ne']
  have hpsd : ∀ z : Vec k, 0 ≤ ∑ a, ∑ b, z a * M a b * z b := by
    intro z
    have e : ∑ a, ∑ b, z a * M a b * z b
        = ∑ a, ∑ b, (z a / Real.sqrt (colCov l a a)) * colCov l a b * (z b / Real.sqrt (colCov l b b)) :=
      Finset.sum_congr rfl fun a _ => Finset.sum_congr rfl fun b _ => by rw [hE]; ring
    rw [e, quad l (fun a => z a / Real.sqrt (colCov l a a))]
    rcases Nat.lt_or_ge l.length 2 with hs | h2
    · match l, hs with
      | [], _ => simp
      | [v], _ => simp
    · apply div_nonneg
      · apply List.sum_nonneg
        intro x hx
        obtain ⟨v, _, rfl⟩ := List.mem_map.1 hx
        exact mul_self_nonneg _
      · have : (2 : ℝ) ≤ (l.length : ℝ) := by exact_mod_cast h2
        linarith
  refine ⟨hsym, hdiag, ?_, hpsd⟩
  intro a b
  by_cases hab : a = b
  · subst hab
    rw [hdiag, abs_one]
  have hq : ∀ s : ℝ, s * s = 1 → 0 ≤ 2 + 2 * s * M a b := by
    intro s hs
    have h0 := hpsd (fun c => (if c = a then 1 else 0) + (if c = b then s else 0))
    have e : ∑ c, ∑ d, ((if c = a then (1 : ℝ) else 0) + (if c = b then s else 0)) * M c d * ((if d = a then (1 : ℝ) else 0) + (if d = b then s else 0))
        = M a a + s * M a b + s * M b a + s * s * M b b := by
      simp only [add_mul, mul_add, Finset.sum_add_distrib, ite_mul, mul_ite, one_mul, mul_one, zero_mul, mul_zero, Finset.sum_ite_eq', Finset.mem_univ, if_true]
      ring
    rw [e, hdiag, hdiag, hsym b a, hs] at h0
    linarith
  rw [abs_le]
  constructor
  · have := hq 1 (by ring)
    linarith
  · have := hq (-1) (by ring)
    linarith

/-- If the rows of a history have the same sum, the matrix annihilates a vector with positive entries. -/
theorem corrcoef_singular (h : List (Option (Vec k))) (M : Mat k) (hM : corrcoef h = some M) (σ : ℝ)
    (hs : ∀ v, some v ∈ h → ∑ j, v j = σ) : ∃ u : Vec k, (∀ a, 0 < u a) ∧ ∀ a, ∑ b, M a b * u b = 0 := by
  obtain ⟨l, hl, hpos, hE⟩ := corrcoef_some h M hM
  refine ⟨fun a => Real.sqrt (colCov l a a), fun a => Real.sqrt_pos.2 (hpos a), fun a => ?_⟩
  have hsum : ∀ v ∈ l, ∑ j, v j = σ := fun v hv => hs v (by rw [hl]; exact List.mem_map_of_mem hv)
  have e : ∀ b, M a b * Real.sqrt (colCov l b b) = colCov l a b / Real.sqrt (colCov l a a) := by
    intro b
    rw [hE, div_mul_cancel₀ _ (Real.sqrt_pos.2 (hpos b)).ne']
  simp only [e]
  rw [← Finset.sum_div]
  have hmean : l ≠ [] → ∑ b, colMean l b = σ := by
    intro hne
    have h1 : ∀ t : List (Vec k), (∀ v ∈ t, ∑ j, v j = σ) → ∑ b, (t.map (fun v => v b)).sum = t.length * σ := by
      intro t
      induction t with
      | nil => intro _; simp
      | cons v t ih =>
        intro ht
        simp only [List.map_cons, List.sum_cons, Finset.sum_add_distrib, List.length_cons]
        rw [ih (fun w hw => ht w (List.mem_cons_of_mem _ hw)), ht v List.mem_cons_self]
        push_cast
        ring
    unfold colMean
    rw [← Finset.sum_div, h1 l hsum]
    have : (l.length : ℝ) ≠ 0 := by
      have := List.length_pos_iff.2 hne
      positivity
    field_simp
  have hz : ∑ b, colCov l a b = 0 := by
    unfold colCov
    rw [← Finset.sum_div]
    have h2 : ∀ t : List (Vec k), (∀ v ∈ t, ∑ b, (v b - colMean l b) = 0) → ∑ b, (t.map (fun v => (v a - colMean l a) * (v b - colMean l b))).sum = 0 := by
      intro t
      induction t with
      | nil => intro _; simp
      | cons v t ih =>
        intro ht
        simp only [List.map_cons, List.sum_cons, Finset.sum_add_distrib]
        rw [ih (fun w hw => ht w (List.mem_cons_of_mem _ hw)), ← Finset.mul_sum, ht v List.mem_cons_self]
        ring
    rw [h2 l (fun v hv => by
      rw [Finset.sum_sub_distrib, hsum v hv, hmean (List.ne_nil_of_mem hv), sub_self]), zero_div]
  rw [hz, zero_div]

theorem softmax_sum (e v : Vec k) (hk : 0 < k) (h : softmax e = some v) : ∑ j, v j = 1 := by
  unfold softmax at h
  simp only at h
  split_ifs at h
  injection h with h
  subst h
  rw [← Finset.sum_div]
  apply div_self
  have : Nonempty (Fin k) := ⟨⟨0, hk⟩⟩
  exact (Finset.sum_pos (fun l _ => Real.exp_pos _) Finset.univ_nonempty).ne'

/-- What is known about the noise matrices: as given, NaN, or a correlation matrix and ten times it, with `S` true of the correlation matrix. -/
def Noise (c : Cfg k) (S : Mat k → Prop) (s : St k) : Prop :=
  (s.Q = some (c.q • 1) ∧ s.R = some (c.r • 1)) ∨ (s.Q = none ∧ s.R = none) ∨ ∃ M, s.Q = some M ∧ s.R = some ((10 : ℝ) • M) ∧ S M

theorem loop_noise (c : Cfg k) (d : Data k) (is : List ℕ) (w w' : Work k) (hw : Noise c IsCorr w.s) (h : loop c d true w is = .ok w') : Noise c IsCorr w'.s := by
  induction is generalizing w with
  | nil =>
    simp only [loop] at h
    injection h with h
    rw [← h]
    exact hw
  | cons i is ih =>
    simp only [loop] at h
    cases hs : step c d true w i with
    | error e => rw [hs] at h; cases h
    | ok w1 =>
      rw [hs] at h
      refine ih w1 ?_ h
      unfold step at hs
      simp only [if_true] at hs
      split_ifs at hs with hi he
      · injection hs with hs
        rw [← hs]
        cases hc : corrcoef (w.hist ++ [coeffsT c d w.s i]) with
        | none => exact Or.inr (Or.inl ⟨rfl, rfl⟩)
        | some M => exact Or.inr (Or.inr ⟨M, rfl, rfl, corrcoef_isCorr _ M hc⟩)
      · injection hs with hs
        rw [← hs]
        have := filter_QR c w.s (coeffsT c d w.s i)
        unfold Noise
        rw [this.1, this.2]
        exact hw

/-- Singular in a direction of positive entries. -/
def Singular (M : Mat k) : Prop := IsCorr M ∧ ∃ u : Vec k, (∀ a, 0 < u a) ∧ ∀ a, ∑ b, M a b * u b = 0

theorem loop_singular (hk : 0 < k) (c : Cfg k) (d : Data k) (n a : ℕ) (x : Vec k) (hx : ∑ j, x j = 1) (w w' : Work k) (hw : Noise c Singular w.s)
    (hh : ∀ v, some v ∈ w.hist → ∑ j, v j = 1) (ha : a < c.nsa → w.s.x = some x)
    (h : loop c d true w (List.range' a n) = .ok w') : Noise c Singular w'.s := by
  induction n generalizing a w with
  | zero =>
    simp only [List.range'_zero, loop] at h
    injection h with h
    rw [← h]
    exact hw
  | succ n ih =>
    rw [List.range'_succ] at h
    simp only [loop] at h
    have hct : ∀ v, some v = coeffsT c d w.s a → ∑ j, v j = 1 := by
      intro v hv
      unfold coeffsT at hv
      split_ifs at hv with hn
      · exact softmax_sum _ v hk hv.symm
      · rw [ha (by omega)] at hv
        injection hv with hv
        rw [hv]
        exact hx
    have hh' : ∀ v, some v ∈ w.hist ++ [coeffsT c d w.s a] → ∑ j, v j = 1 := by
      intro v hv
      rcases List.mem_append.1 hv with hv | hv
      · exact hh v hv
      · exact hct v (List.mem_singleton.1 hv)
    have hxx : a + 1 < c.nsa → (filter c w.s (coeffsT c d w.s a)).x = some x := by
      intro hlt
      have : coeffsT c d w.s a = w.s.x := by
        unfold coeffsT
        rw [if_neg (by omega)]
      rw [this, filter_self]
      exact ha (by omega)
    cases hs : step c d true w a with
    | error e => rw [hs] at h; cases h
    | ok w1 =>
      rw [hs] at h
      unfold step at hs
      simp only [if_true] at hs
      split_ifs at hs with hi he
      · injection hs with hs
        refine ih (a + 1) w1 ?_ ?_ ?_ h
        · rw [← hs]
          cases hc : corrcoef (w.hist ++ [coeffsT c d w.s a]) with
          | none => exact Or.inr (Or.inl ⟨rfl, rfl⟩)
          | some M => exact Or.inr (Or.inr ⟨M, rfl, rfl, corrcoef_isCorr _ M hc, corrcoef_singular _ M hc 1 hh'⟩)
        · rw [← hs]; exact hh'
        · rw [← hs]; exact hxx
      · injection hs with hs
        refine ih (a + 1) w1 ?_ ?_ ?_ h
        · rw [← hs]
          have := filter_QR c w.s (coeffsT c d w.s a)
          unfold Noise
          rw [this.1, this.2]
          exact hw
        · rw [← hs]; exact hh'
        · rw [← hs]; exact hxx

variable {E F : Type}

theorem call_states (c : Cfg k) (ex : Experts E F k) (o o' : Obj E k) (f : F) (fit : Bool) (rows : List (Option (ℕ → ℝ)))
    (h : call c ex o f fit = .ok (o', rows)) : o'.states = o.states ∨
      ∃ (d : Data k) (w : Work k), d.len = ex.len f ∧ loop c d true { s := o.states, hist := [], rows := [] } (List.range d.len) = .ok w ∧ o'.states = w.s := by
  unfold call run rowsOf at h
  simp only at h
  split at h
  · cases h
  · next w hw =>
    split at hw
    · cases hw
    · next w2 hl =>
      split_ifs at hw with h0
      injection hw with hw
      subst hw
      injection h with h
      injection h with h1 h2
      cases fit with
      | false => left; rw [← h1]; rfl
      | true => right; exact ⟨_, w2, rfl, hl, by rw [← h1]; rfl⟩

/-- C338: after any calls of a new object the noise matrices are those given, or NaN, or a correlation matrix and ten times the same matrix. -/
theorem C338_noise (c : Cfg k) (ex : Experts E F k) (e : E) (fs : List (F × Bool)) (o' : Obj E k) (rs : List (List (Option (ℕ → ℝ))))
    (h : calls c ex { experts := e, states := fresh c } fs = .ok (o', rs)) : Noise c IsCorr o'.states := by
  have key : ∀ (fs : List (F × Bool)) (o : Obj E k) (rs : List (List (Option (ℕ → ℝ)))), Noise c IsCorr o.states → calls c ex o fs = .ok (o', rs) → Noise c IsCorr o'.states := by
    intro fs
    induction fs with
    | nil =>
      intro o rs ho h
      simp only [calls] at h
      injection h with h
      injection h with h1 h2
      rw [← h1]
      exact ho
    | cons p fs ih =>
      intro o rs ho h
      obtain ⟨f, b⟩ := p
      simp only [calls] at h
      split at h
      · cases h
      · next o1 r hc =>
        split at h
        · cases h
        · next o2 rs2 hcs =>
          injection h with h
          injection h with h1 h2
          subst h1
          refine ih o1 rs2 ?_ hcs
          rcases call_states c ex o o1 f b r hc with he | ⟨d, w, _, hl, he⟩
          · rw [he]; exact ho
          · rw [he]; exact loop_noise c d _ _ w ho hl
  exact key fs _ rs (Or.inl ⟨rfl, rfl⟩) h

/-- C338: after the first fit a matrix that has been estimated is singular: it annihilates a combination of the weights with positive factors. -/
theorem C338_singular (hk : 0 < k) (c : Cfg k) (ex : Experts E F k) (e : E) (f : F) (fit : Bool) (o' : Obj E k) (rows : List (Option (ℕ → ℝ)))
    (h : call c ex { experts := e, states := fresh c } f fit = .ok (o', rows)) : Noise c Singular o'.states := by
  rcases call_states c ex _ o' f fit rows h with he | ⟨d, w, _, hl, he⟩
  · rw [he]; exact Or.inl ⟨rfl, rfl⟩
  · rw [he]
    rw [List.range_eq_range'] at hl
    refine loop_singular hk c d d.len 0 (fun _ => 1 / (k : ℝ)) ?_ _ w (Or.inl ⟨rfl, rfl⟩) (by simp) (fun _ => rfl) hl
    have : (k : ℝ) ≠ 0 := by positivity
    simp
    field_simp

/-- C338: with two experts the matrix estimated in the first fit is the same whatever the data. -/
theorem C338_two (c : Cfg 2) (ex : Experts E F 2) (e : E) (f : F) (fit : Bool) (o' : Obj E 2) (rows : List (Option (ℕ → ℝ)))
    (h : call c ex { experts := e, states := fresh c } f fit = .ok (o', rows)) : Noise c (fun M => M = !![1, -1; -1, 1]) o'.states := by
  rcases C338_singular (by omega) c ex e f fit o' rows h with h | h | ⟨M, hQ, hR, ⟨hsym, hd, hab, _⟩, u, hu, hz⟩
  · exact Or.inl h
  · exact Or.inr (Or.inl h)
  · refine Or.inr (Or.inr ⟨M, hQ, hR, ?_⟩)
    have h0 := hz 0
    have h1 := hz 1
    rw [Fin.sum_univ_two, hd] at h0
    rw [Fin.sum_univ_two, hd, hsym 1 0] at h1
    have hm : M 0 1 = -1 := by
      have hs : M 0 1 * M 0 1 = 1 := by
        have hu0 := hu 0
        have e1 : u 0 = -(M 0 1 * u 1) := by linarith
        have e2 : u 1 = -(M 0 1 * u 0) := by linarith
        have e3 : u 0 * (M 0 1 * M 0 1 - 1) = 0 := by
          rw [e2] at e1
          linear_combination -e1
        rcases mul_eq_zero.1 e3 with h | h
        · exact absurd h hu0.ne'
        · linarith
      have hneg : M 0 1 < 0 := by
        by_contra hge
        have : 0 ≤ M 0 1 * u 1 := mul_nonneg (not_lt.1 hge) (hu 1).le
        have := hu 0
        linarith
      have : (M 0 1 + 1) * (M 0 1 - 1) = 0 := by linear_combination hs
      rcases mul_eq_zero.1 this with h | h <;> linarith
    ext a b
    fin_cases a <;> fin_cases b
    · simpa using hd 0
    · simpa using hm
    · simpa using (hsym 1 0).trans hm
    · simpa using hd 1

/-- Noise matrices that have been estimated. -/
def Estimated (s : St k) : Prop := (s.Q = none ∧ s.R = none) ∨ ∃ M, s.Q = some M ∧ s.R = some ((10 : ℝ) • M) ∧ IsCorr M

theorem step_estimated (c : Cfg k) (d : Data k) (i : ℕ) (w w' : Work k) (h : step c d true w i = .ok w')
    (hw : Estimated w.s ∨ i % c.m = 0 ∧ c.m ≤ i) : Estimated w'.s := by
  unfold step at h
  simp only [if_true] at h
  split_ifs at h with hi he
  · injection h with h
    rw [← h]
    cases hc : corrcoef (w.hist ++ [coeffsT c d w.s i]) with
    | none => exact Or.inl ⟨rfl, rfl⟩
    | some M => exact Or.inr ⟨M, rfl, rfl, corrcoef_isCorr _ M hc⟩
  · injection h with h
    rw [← h]
    have := filter_QR c w.s (coeffsT c d w.s i)
    unfold Estimated
    rw [this.1, this.2]
    exact hw.resolve_right hi

theorem loop_estimated (c : Cfg k) (d : Data k) (is : List ℕ) (w w' : Work k) (h : loop c d true w is = .ok w')
    (hw : Estimated w.s ∨ c.m ∈ is) : Estimated w'.s := by
  induction is generalizing w with
  | nil =>
    simp only [loop] at h
    injection h with h
    rw [← h]
    exact hw.resolve_right (by simp)
  | cons i is ih =>
    simp only [loop] at h
    cases hs : step c d true w i with
    | error e => rw [hs] at h; cases h
    | ok w1 =>
      rw [hs] at h
      refine ih w1 h ?_
      rcases hw with hw | hw
      · exact Or.inl (step_estimated c d i w w1 hs (Or.inl hw))
      · rcases List.mem_cons.1 hw with e | hw
        · exact Or.inl (step_estimated c d i w w1 hs (Or.inr (by rw [← e]; exact ⟨Nat.mod_self _, le_rfl⟩)))
        · exact Or.inr hw

/-- C338: a fit on more than `m` rows, of an object in any state, leaves nothing of the noise matrices there were: they are NaN or a correlation matrix and ten times it. -/
theorem C338_replaced (c : Cfg k) (ex : Experts E F k) (o o' : Obj E k) (f : F) (hl : c.m < ex.len f) (rows : List (Option (ℕ → ℝ)))
    (h : call c ex o f true = .ok (o', rows)) :
    (o'.states.Q = none ∧ o'.states.R = none) ∨ ∃ M, o'.states.Q = some M ∧ o'.states.R = some ((10 : ℝ) • M) ∧ IsCorr M := by
  unfold call run rowsOf at h
  simp only at h
  split at h
  · cases h
  · next w hw =>
    split at hw
    · cases hw
    · next w2 hlp =>
      split_ifs at hw with h0
      injection hw with hw
      subst hw
      injection h with h
      injection h with h1 h2
      rw [← h1]
      exact loop_estimated c _ _ _ w2 hlp (Or.inr (List.mem_range.2 hl))

end PyF.FkRun
