import Verif.FkRun.Props
import Mathlib.Tactic.LinearCombination

/-! Property C314: `FK_multi` in other units of measure. -/

namespace PyF.FkRun
open PyF

variable {k : ℕ} {E E' F F' : Type}

namespace Spec

/-- Forecasts of one row in other units: `v` becomes `a v + b`; NaN stays NaN. -/
def convert (a b : ℝ) (r : Option (ℕ → ℝ)) : Option (ℕ → ℝ) := r.map (fun g => fun s => a * g s + b)

/-- The experts `ex'` do on converted frames what `ex` do on the old ones, as long as their states correspond. -/
structure Converted (a b : ℝ) (ex : Experts E F k) (ex' : Experts E' F' k) (U : F → F') (R : E → E' → Prop) : Prop where
  len : ∀ f, ex'.len (U f) = ex.len f
  obs : ∀ f i, ex'.obs (U f) i = a * ex.obs f i + b
  fit : ∀ e e' f, R e e' → R (ex.fit e f) (ex'.fit e' (U f))
  predict : ∀ e e' f, R e e' → ∀ j i s, ex'.predict e' (U f) j i s = a * ex.predict e f j i s + b

end Spec

theorem err_convert (a b : ℝ) (nsa : ℕ) (p p' : ℕ → ℕ → ℝ) (hp : ∀ i s, p' i s = a * p i s + b) (y : ℝ) (i : ℕ) :
    err nsa p' (a * y + b) i = |a| * err nsa p y i := by
  unfold err
  rw [mul_div_assoc', Finset.mul_sum]
  congr 1
  apply Finset.sum_congr rfl
  intro s _
  rw [hp, ← abs_mul]
  congr 1
  ring

theorem softmax_scale (c : ℝ) (hc : 0 < c) (e : Vec k) : softmax (fun j => c * e j) = softmax e := by
  unfold softmax
  simp only
  have h1 : (∑ j, c * e j) / (k : ℝ) = c * ((∑ j, e j) / k) := by rw [← Finset.mul_sum, mul_div_assoc]
  rw [h1]
  by_cases h : (∑ j, e j) / (k : ℝ) = 0
  · rw [if_pos h, if_pos (by rw [h, mul_zero])]
  · rw [if_neg h, if_neg (mul_ne_zero hc.ne' h)]
    simp only [mul_div_mul_left _ _ hc.ne']

theorem coeffsT_convert (a b : ℝ) (ha : a ≠ 0) (c : Cfg k) (d d' : Data k) (ho : ∀ i, d'.obs i = a * d.obs i + b)
    (hp : ∀ j i s, d'.p j i s = a * d.p j i s + b) (s : St k) (i : ℕ) : coeffsT c d' s i = coeffsT c d s i := by
  unfold coeffsT
  by_cases h : c.nsa ≤ i
  · rw [if_pos h, if_pos h, ho]
    have : (fun j => err c.nsa (d'.p j) (a * d.obs i + b) i) = fun j => |a| * err c.nsa (d.p j) (d.obs i) i :=
      funext fun j => err_convert a b c.nsa (d.p j) (d'.p j) (hp j) _ i
    rw [this, softmax_scale _ (abs_pos.2 ha)]
  · rw [if_neg h, if_neg h]

theorem weights_convert (a b : ℝ) (d d' : Data k) (hp : ∀ j i s, d'.p j i s = a * d.p j i s + b) (i : ℕ) (v : Vec k) :
    (Fast.weights v).map (fun w => fun s => Fast.combine w (fun j => d'.p j i s)) =
      Spec.convert a b ((Fast.weights v).map (fun w => fun s => Fast.combine w (fun j => d.p j i s))) := by
  unfold Spec.convert
  cases hw : Fast.weights v with
  | none => rfl
  | some w =>
    simp only [Option.map_some]
    congr 1
    funext s
    obtain ⟨-, hs, -⟩ := (Fast.C43_envelope v).2 w hw
    simp only [Fast.combine]
    simp only [hp]
    rw [show (∑ j, (a * d.p j i s + b) * w j) = a * (∑ j, d.p j i s * w j) + b * ∑ j, w j by
      rw [Finset.mul_sum, Finset.mul_sum, ← Finset.sum_add_distrib]
      exact Finset.sum_congr rfl (fun j _ => by ring), hs, mul_one]

theorem forecast_convert (a b : ℝ) (d d' : Data k) (hp : ∀ j i s, d'.p j i s = a * d.p j i s + b) (i : ℕ) (x ct : Option (Vec k)) :
    forecast d' i x ct = Spec.convert a b (forecast d i x ct) := by
  unfold forecast
  cases x with
  | some v => exact weights_convert a b d d' hp i v
  | none =>
    cases ct with
    | none => rfl
    | some v => exact weights_convert a b d d' hp i v

/-- The working state with the rows in other units. -/
def Work.convert (a b : ℝ) (w : Work k) : Work k := { w with rows := w.rows.map (Spec.convert a b) }

theorem step_convert (a b : ℝ) (ha : a ≠ 0) (c : Cfg k) (d d' : Data k) (ho : ∀ i, d'.obs i = a * d.obs i + b)
    (hp : ∀ j i s, d'.p j i s = a * d.p j i s + b) (ret : Bool) (w : Work k) (i : ℕ) :
    step c d' ret (w.convert a b) i = (step c d ret w i).map (Work.convert a b) := by
  unfold step
  simp only [Work.convert, coeffsT_convert a b ha c d d' ho hp, forecast_convert a b d d' hp]
  generalize (if ret = true then w.hist ++ [coeffsT c d w.s i] else w.hist) = hist
  by_cases h1 : i % c.m = 0 ∧ c.m ≤ i
  · rw [if_pos h1, if_pos h1]
    by_cases h2 : hist.isEmpty = true
    · rw [if_pos h2, if_pos h2]
      rfl
    · rw [if_neg h2, if_neg h2]
      simp [Except.map, Work.convert]
  · rw [if_neg h1, if_neg h1]
    simp [Except.map, Work.convert]

theorem loop_convert (a b : ℝ) (ha : a ≠ 0) (c : Cfg k) (d d' : Data k) (ho : ∀ i, d'.obs i = a * d.obs i + b)
    (hp : ∀ j i s, d'.p j i s = a * d.p j i s + b) (ret : Bool) (is : List ℕ) (w : Work k) :
    loop c d' ret (w.convert a b) is = (loop c d ret w is).map (Work.convert a b) := by
  induction is generalizing w with
  | nil => rfl
  | cons i is ih =>
    simp only [loop]
    rw [step_convert a b ha c d d' ho hp]
    cases step c d ret w i with
    | error e => rfl
    | ok w' => exact ih w'

/-- One call in other units. -/
theorem call_convert (a b : ℝ) (ha : a ≠ 0) (c : Cfg k) (ex : Experts E F k) (ex' : Experts E' F' k) (U : F → F') (R : E → E' → Prop)
    (h : Spec.Converted a b ex ex' U R) (o : Obj E k) (o' : Obj E' k) (hs : o'.states = o.states) (hR : R o.experts o'.experts) (f : F)
    (fit : Bool) :
    (∀ err, call c ex o f fit = .error err → call c ex' o' (U f) fit = .error err) ∧
    ∀ o1 rows, call c ex o f fit = .ok (o1, rows) → ∃ o1', call c ex' o' (U f) fit = .ok (o1', rows.map (Spec.convert a b)) ∧
      o1'.states = o1.states ∧ R o1.experts o1'.experts := by
  have hR' : R (if fit then ex.fit o.experts f else o.experts) (if fit then ex'.fit o'.experts (U f) else o'.experts) := by
    cases fit
    · exact hR
    · exact h.fit _ _ _ hR
  unfold call run
  simp only
  set e := if fit then ex.fit o.experts f else o.experts with he
  set e' := if fit then ex'.fit o'.experts (U f) else o'.experts with he'
  have hl := loop_convert a b ha c { len := ex.len f, obs := ex.obs f, p := ex.predict e f }
    { len := ex'.len (U f), obs := ex'.obs (U f), p := ex'.predict e' (U f) } (h.obs f) (h.predict e e' f hR') true (List.range (ex.len f))
    { s := o.states, hist := [], rows := [] }
  have hw0 : Work.convert a b ({ s := o.states, hist := [], rows := [] } : Work k) = { s := o'.states, hist := [], rows := [] } := by
    rw [hs]; rfl
  rw [hw0] at hl
  unfold rowsOf
  simp only [h.len f]
  simp only [h.len f] at hl
  rw [hl]
  cases hloop : loop c { len := ex.len f, obs := ex.obs f, p := ex.predict e f } true { s := o.states, hist := [], rows := [] }
      (List.range (ex.len f)) with
  | error er => exact ⟨fun er' hh => (by have e := Except.error.inj hh; rw [← e]; rfl), fun o1 rows hh => by cases hh⟩
  | ok w =>
    simp only [Except.map]
    by_cases h0 : ex.len f = 0
    · simp only [h0, if_true]
      exact ⟨fun er' hh => (by have e := Except.error.inj hh; rw [← e]), fun o1 rows hh => by cases hh⟩
    · simp only [h0, if_false]
      refine ⟨fun er' hh => (by cases hh), fun o1 rows hh => ?_⟩
      obtain ⟨rfl, rfl⟩ := Prod.mk.inj (Except.ok.inj hh)
      refine ⟨_, rfl, ?_, hR'⟩
      simp only [Work.convert, hs]

/-- **C314.** `FK_multi` in other units: if signal and forecasts of the experts are changed to `a v + b`, every sequence of fits and
predictions gives the old forecasts in the new units, or the same error, and leaves the same weights and filter matrices. -/
theorem C314_units (a b : ℝ) (ha : a ≠ 0) (c : Cfg k) (ex : Experts E F k) (ex' : Experts E' F' k) (U : F → F') (R : E → E' → Prop)
    (h : Spec.Converted a b ex ex' U R) (o : Obj E k) (o' : Obj E' k) (hs : o'.states = o.states) (hR : R o.experts o'.experts)
    (fs : List (F × Bool)) :
    (∀ err, calls c ex o fs = .error err → calls c ex' o' (fs.map (fun p => (U p.1, p.2))) = .error err) ∧
    ∀ o1 rs, calls c ex o fs = .ok (o1, rs) →
      ∃ o1', calls c ex' o' (fs.map (fun p => (U p.1, p.2))) = .ok (o1', rs.map (fun rows => rows.map (Spec.convert a b))) ∧
        o1'.states = o1.states ∧ R o1.experts o1'.experts := by
  induction fs generalizing o o' with
  | nil =>
    refine ⟨fun er hh => (by cases hh), fun o1 rs hh => ?_⟩
    obtain ⟨rfl, rfl⟩ := Prod.mk.inj (Except.ok.inj hh)
    exact ⟨o', rfl, hs, hR⟩
  | cons p ps ih =>
    obtain ⟨f, fit⟩ := p
    obtain ⟨c1, c2⟩ := call_convert a b ha c ex ex' U R h o o' hs hR f fit
    simp only [List.map_cons, calls]
    cases hc : call c ex o f fit with
    | error er =>
      rw [c1 er hc]
      exact ⟨fun er' hh => (by have e := Except.error.inj hh; rw [← e]), fun o1 rs hh => by cases hh⟩
    | ok r =>
      obtain ⟨o1, rows⟩ := r
      obtain ⟨o1', hc', hs', hR'⟩ := c2 o1 rows hc
      rw [hc']
      obtain ⟨i1, i2⟩ := ih o1 o1' hs' hR'
      simp only
      cases hcs : calls c ex o1 ps with
      | error er =>
        rw [i1 er hcs]
        exact ⟨fun er' hh => (by have e := Except.error.inj hh; rw [← e]), fun o1 rs hh => by cases hh⟩
      | ok r2 =>
        obtain ⟨o2, rs⟩ := r2
        obtain ⟨o2', hcs', hs2, hR2⟩ := i2 o2 rs hcs
        rw [hcs']
        refine ⟨fun er' hh => (by cases hh), fun o3 rs3 hh => ?_⟩
        obtain ⟨rfl, rfl⟩ := Prod.mk.inj (Except.ok.inj hh)
        exact ⟨o2', rfl, hs2, hR2⟩

end PyF.FkRun
