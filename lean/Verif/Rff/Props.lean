import Verif.Rff.Model
import Verif.FmtNorm.Props
import Mathlib.Tactic.Ring
import Mathlib.Tactic.Linarith
import Mathlib.Tactic.FieldSimp
import Mathlib.Algebra.BigOperators.Fin
import Mathlib.Data.Fintype.BigOperators
import Mathlib.Data.List.GetD

namespace PyF.Rff
open PyF

/-! ### C171: the random matrix of a regressor -/

/-- The matrix and the biases are the given ones. -/
def Fixed (o : Obj) (w : Mat) (b : List ℝ) : Prop := o.W = some w ∧ o.b = some b

theorem setWeight_fixed (E : Env) (o : Obj) (w : Mat) (b : List ℝ) (h : Fixed o w b) (d : Nat) : setWeight E o d = o := by
  unfold setWeight
  simp only [h.1, h.2]

theorem setWeight_some (E : Env) (o : Obj) (d : Nat) : ∃ w b, Fixed (setWeight E o d) w b ∧ (o.W = none → w.rows = d ∧ w.cols = o.dim) ∧
    (∀ w', o.W = some w' → w = w') ∧ (o.b = none → b.length = w.cols) ∧ (∀ b', o.b = some b' → b = b') ∧ (setWeight E o d).reg = o.reg := by
  obtain ⟨dim, W, b, reg, draws⟩ := o
  cases W <;> cases b <;> simp [setWeight, Fixed]

theorem after_setWeight (E : Env) (o : Obj) (op : Op) : (op.after E o).W = (setWeight E o op.width).W ∧ (op.after E o).b = (setWeight E o op.width).b := by
  cases op with
  | fit x y =>
    simp only [Op.after, Rff.fit, Op.width]
    cases conv (setWeight E o x.p) x <;> exact ⟨rfl, rfl⟩
  | predict x =>
    simp only [Op.after, Rff.predict, Op.width]
    cases conv (setWeight E o x.p) x
    · exact ⟨rfl, rfl⟩
    · cases (setWeight E o x.p).reg <;> exact ⟨rfl, rfl⟩
  | score x =>
    simp only [Op.after, Rff.score, Op.width]
    cases conv (setWeight E o x.p) x <;> cases (setWeight E o x.p).reg <;> exact ⟨rfl, rfl⟩

/-- C171 (frozen): once there, the matrix and the biases stay the same through any calls, failing ones included. -/
theorem C171_frozen (E : Env) (ops : List Op) (o : Obj) (w : Mat) (b : List ℝ) (h : Fixed o w b) : Fixed (afterAll E o ops) w b := by
  induction ops generalizing o with
  | nil => exact h
  | cons op ops ih =>
    refine ih (op.after E o) ?_
    have := after_setWeight E o op
    rw [setWeight_fixed E o w b h] at this
    exact ⟨this.1.trans h.1, this.2.trans h.2⟩

/-- C171 (first call): the first call of any kind, even one that fails, fixes the matrix: as many rows as the frame has columns, `dim_kernel` columns, one bias each. -/
theorem C171_first_call (E : Env) (o : Obj) (hW : o.W = none) (hb : o.b = none) (op : Op) :
    ∃ w b, Fixed (op.after E o) w b ∧ w.rows = op.width ∧ w.cols = o.dim ∧ b.length = o.dim := by
  obtain ⟨w, b, hf, h1, -, h3, -, -⟩ := setWeight_some E o op.width
  have ha := after_setWeight E o op
  exact ⟨w, b, ⟨ha.1.trans hf.1, ha.2.trans hf.2⟩, (h1 hW).1, (h1 hW).2, (h3 hb).trans (h1 hW).2⟩

theorem fit_fixed (E : Env) (o : Obj) (w : Mat) (b : List ℝ) (h : Fixed o w b) (x : X) (y : List (List ℝ)) :
    Rff.fit E o x y = match conv o x with
      | .error e => (o, .error e)
      | .ok f => ({ o with reg := some (E.learn f y) }, .ok ()) := by
  simp only [Rff.fit, setWeight_fixed E o w b h]
  cases conv o x <;> rfl

/-- C171 (width): after a first call with `p` columns, and any calls since, a fit with another number of columns is a ValueError and leaves the object as it was:
a regressor cannot be refitted on more or fewer features. -/
theorem C171_width (E : Env) (o : Obj) (hW : o.W = none) (hb : o.b = none) (first : Op) (ops : List Op) (x : X) (y : List (List ℝ)) (hp : x.p ≠ first.width) :
    Rff.fit E (afterAll E o (first :: ops)) x y = (afterAll E o (first :: ops), .error .valueError) := by
  obtain ⟨w, b, hf, hr, -, -⟩ := C171_first_call E o hW hb first
  have hF : Fixed (afterAll E o (first :: ops)) w b := C171_frozen E ops _ w b hf
  rw [fit_fixed E _ w b hF]
  have : conv (afterAll E o (first :: ops)) x = .error .valueError := by
    unfold conv
    simp only [hF.1, hF.2]
    rw [if_pos (by rw [hr]; exact hp)]
  rw [this]

/-- C171 (refit): a fit with the right number of columns always succeeds, whatever was called before, and what it learns depends on its own data and the
matrix only. -/
theorem C171_refit (E : Env) (o : Obj) (hW : o.W = none) (hb : o.b = none) (first : Op) :
    ∃ w b, w.rows = first.width ∧ w.cols = o.dim ∧ b.length = o.dim ∧ ∀ (ops : List Op) (x : X) (y : List (List ℝ)), x.p = first.width →
      (Rff.fit E (afterAll E o (first :: ops)) x y).2 = .ok () ∧
      (Rff.fit E (afterAll E o (first :: ops)) x y).1.reg = some (E.learn (x.rows.map (convRow w b o.dim)) y) := by
  obtain ⟨w, b, hf, hr, hc, hl⟩ := C171_first_call E o hW hb first
  refine ⟨w, b, hr, hc, hl, fun ops x y hp => ?_⟩
  have hF : Fixed (afterAll E o (first :: ops)) w b := C171_frozen E ops _ w b hf
  rw [fit_fixed E _ w b hF]
  have : conv (afterAll E o (first :: ops)) x = .ok (x.rows.map (convRow w b o.dim)) := by
    unfold conv
    simp only [hF.1, hF.2]
    rw [if_neg (by rw [hr]; exact not_not.2 hp)]
    have : outWidth w.cols b.length = some o.dim := by rw [hc, hl]; simp [outWidth]
    rw [this]
  rw [this]
  exact ⟨rfl, rfl⟩

theorem predict_fixed (E : Env) (o : Obj) (w : Mat) (b : List ℝ) (h : Fixed o w b) (x : X) :
    Rff.predict E o x = match conv o x with
      | .error e => (o, .error e)
      | .ok f => match o.reg with
        | none => (o, .error .valueError)
        | some g => (o, .ok (f.map g)) := by
  simp only [Rff.predict, setWeight_fixed E o w b h]
  cases conv o x
  · rfl
  · cases o.reg <;> rfl

/-- The last successful fit among the calls wins; predictions and scores do not change the regression. -/
theorem reg_after (E : Env) (o : Obj) (w : Mat) (b : List ℝ) (h : Fixed o w b) (op : Op) (hop : ∀ x y, op ≠ .fit x y) : op.after E o = o := by
  cases op with
  | fit x y => exact absurd rfl (hop x y)
  | predict x =>
    simp only [Op.after]
    rw [predict_fixed E o w b h]
    cases conv o x
    · rfl
    · cases o.reg <;> rfl
  | score x =>
    simp only [Op.after, Rff.score, setWeight_fixed E o w b h]
    cases conv o x <;> cases o.reg <;> rfl

/-- C171 (predict): after a fit and any predictions and scores, a prediction applies what the fit learned to the features of its rows, with the matrix of the fit. -/
theorem C171_predict (E : Env) (o : Obj) (hW : o.W = none) (hb : o.b = none) (x : X) (y : List (List ℝ)) (ops : List Op) (hops : ∀ op ∈ ops, ∀ x y, op ≠ .fit x y)
    (x' : X) (hp : x'.p = x.p) : ∃ w b, (∀ ops', Fixed (afterAll E o (.fit x y :: ops')) w b) ∧
    (Rff.predict E (afterAll E o (.fit x y :: ops)) x').2 = .ok (x'.rows.map (fun r => E.learn (x.rows.map (convRow w b o.dim)) y (convRow w b o.dim r))) := by
  obtain ⟨w, b, hf, hr, hc, hl⟩ := C171_first_call E o hW hb (.fit x y)
  refine ⟨w, b, fun ops' => C171_frozen E ops' _ w b hf, ?_⟩
  have hcv : ∀ (o' : Obj) (z : X), Fixed o' w b → z.p = x.p → conv o' z = .ok (z.rows.map (convRow w b o.dim)) := by
    intro o' z hF hz
    unfold conv
    simp only [hF.1, hF.2]
    rw [if_neg (by rw [hr]; exact not_not.2 hz)]
    have : outWidth w.cols b.length = some o.dim := by rw [hc, hl]; simp [outWidth]
    rw [this]
  have hreg : ((Op.fit x y).after E o).reg = some (E.learn (x.rows.map (convRow w b o.dim)) y) := by
    obtain ⟨w2, b2, hf2, -⟩ := setWeight_some E o x.p
    have ha := after_setWeight E o (.fit x y)
    have hF0 : Fixed (setWeight E o x.p) w b := ⟨ha.1.symm.trans hf.1, ha.2.symm.trans hf.2⟩
    simp only [Op.after, Rff.fit]
    rw [hcv _ x hF0 rfl]
  have hall : afterAll E o (.fit x y :: ops) = (Op.fit x y).after E o := by
    have : ∀ (l : List Op), (∀ op ∈ l, ∀ x y, op ≠ .fit x y) → ∀ o', Fixed o' w b → afterAll E o' l = o' := by
      intro l
      induction l with
      | nil => intros; rfl
      | cons op l ih =>
        intro hl o' ho'
        show afterAll E (op.after E o') l = o'
        rw [reg_after E o' w b ho' op (hl op (by simp))]
        exact ih (fun q hq => hl q (List.mem_cons_of_mem _ hq)) o' ho'
    exact this ops hops _ hf
  rw [hall, predict_fixed E _ w b hf, hcv _ x' hf hp, hreg]
  simp only [List.map_map]
  rfl

/-- C171 (features): with as many biases as columns, feature `c` of a row is the cosine of its scalar product with column `c` of the matrix plus bias `c`. -/
theorem C171_feature (w : Mat) (b : List ℝ) (hb : b.length = w.cols) (row : List ℝ) (hr : row.length = w.rows) (c : Nat) (hc : c < b.length) :
    (convRow w b w.cols row)[c]? = some (Real.cos ((∑ i : Fin row.length, row[i] * w.val i c) + b[c])) := by
  unfold convRow
  rw [List.getElem?_map, List.getElem?_range (by omega), Option.map_some]
  congr 2
  congr 1
  · rw [← hr, Finset.sum_fin_eq_sum_range, ← List.sum_toFinset _ List.nodup_range, List.toFinset_range]
    apply Finset.sum_congr rfl
    intro i hi
    rw [Finset.mem_range] at hi
    rw [dif_pos hi, List.getD_eq_getElem _ _ hi]
    have : (if w.cols = 1 then 0 else c) = c := by
      split
      · omega
      · rfl
    rw [this]
    rfl
  · have : (if b.length = 1 then 0 else c) = c := by
      split
      · omega
      · rfl
    rw [this, List.getD_eq_getElem _ _ hc]

/-- C171 (bounded features): every feature lies in [-1, 1]. -/
theorem C171_bounded (w : Mat) (b : List ℝ) (m : Nat) (row : List ℝ) : ∀ v ∈ convRow w b m row, -1 ≤ v ∧ v ≤ 1 := by
  intro v hv
  unfold convRow at hv
  obtain ⟨c, -, rfl⟩ := List.mem_map.1 hv
  exact ⟨Real.neg_one_le_cos _, Real.cos_le_one _⟩

/-- C171 (supplied matrix): a regressor constructed with `W` and without `b` draws one bias per column of `W`, whatever `dim_kernel` says. -/
theorem C171_supplied (E : Env) (o : Obj) (w : Mat) (hW : o.W = some w) (hb : o.b = none) (op : Op) :
    ∃ b, Fixed (op.after E o) w b ∧ b.length = w.cols := by
  obtain ⟨w', b, hf, -, h2, h3, -, -⟩ := setWeight_some E o op.width
  have ha := after_setWeight E o op
  obtain rfl := h2 w hW
  exact ⟨b, ⟨ha.1.trans hf.1, ha.2.trans hf.2⟩, h3 hb⟩

/-! ### C174: denormalised forecasts -/

theorem named_scaled (g : Nat → ℚ → ℚ) (x : Normalize.Frame) : named (scaledFrame g x) = [] := by
  unfold named scaledFrame
  rw [List.filterMap_map, List.filterMap_eq_nil_iff]
  intro a _
  rfl

/-- C174 (defect): with a formatter that normalises a target, every forecast of an RFF regressor is a KeyError as soon as the formatter has a normaliser or a feature
column: `predict` passes the scaled frame, which has lost the names of its columns. Whatever columns `x` had does not matter. -/
theorem C174_error {N : Type} (s : Normalize.Setting N) (gn d : N → ℚ → ℚ) (hg : s.norm = some gn) (hd : s.denorm = some d) (hne : s.targetNames ≠ [])
    (names : List Names.Str) (ms : List FmtNorm.Meta) (hany : names ≠ [] ∨ ∃ c, FmtNorm.Derived ms c) (g : Nat → ℚ → ℚ) (x yHat : Normalize.Frame) :
    antiTransform s names ms g x yHat = .error .keyError := by
  unfold antiTransform
  rw [named_scaled]
  cases h : FmtNorm.denormalizeBoth s names ms [] yHat with
  | error e => rw [FmtNorm.C148_error s names ms [] yHat e h]
  | ok r =>
    exfalso
    obtain ⟨h1, -, h3⟩ := (FmtNorm.C148_ok_iff s gn d hg hd hne names ms [] yHat).1 ⟨r, h⟩
    rcases hany with hn | ⟨c, hc⟩
    · obtain ⟨n, hn⟩ := List.exists_mem_of_ne_nil _ hn
      obtain ⟨_, hm⟩ := h1 n hn
      cases hm
    · obtain ⟨_, hm⟩ := h3 c hc
      cases hm

/-- C174 (when it works): without a normalisation the forecast is returned as it is. -/
theorem C174_plain {N : Type} (s : Normalize.Setting N) (hd : s.denorm = none) (names : List Names.Str) (ms : List FmtNorm.Meta) (g : Nat → ℚ → ℚ) (x yHat : Normalize.Frame) :
    antiTransform s names ms g x yHat = .ok yHat := by
  unfold antiTransform FmtNorm.denormalizeBoth
  rw [hd]

end PyF.Rff
