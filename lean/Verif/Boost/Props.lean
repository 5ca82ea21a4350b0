import Verif.Boost.Model
import Mathlib.Algebra.Order.BigOperators.Group.List
import Mathlib.Algebra.BigOperators.Ring.List
import Mathlib.Tactic.Abel
import Mathlib.Tactic.Linarith
import Mathlib.Tactic.Ring
import Mathlib.Tactic.FieldSimp
import Mathlib.Data.List.GetD
import Mathlib.Algebra.Order.Field.Basic

namespace PyF.Boost
open PyF

section additive
variable {X V : Type} [AddCommGroup V]

/-- Specification: the residual of the ensemble `ps` on the training data. -/
def residual (f : X → V) (x : List X) (y : List V) : List V := List.zipWith (fun a b => b - f a) x y

theorem addPredict_eq_sum (sc : X → X) (ps : List (X → V)) (x : X) :
    addPredict sc ps x = (ps.map (fun p => p (sc x))).sum := by
  have : ∀ (l : List (X → V)) (a : V), l.foldl (fun acc p => acc + p (sc x)) a
      = a + (l.map (fun p => p (sc x))).sum := by
    intro l
    induction l with
    | nil => intro a; simp
    | cons p l ih => intro a; simp only [List.foldl_cons, ih, List.map_cons, List.sum_cons]; abel
  unfold addPredict
  rw [this]; simp

theorem fitLoop_spec (rows : List X) (ms : List (Learner X V)) (err : List V) (hl : err.length = rows.length) :
    (fitLoop rows ms err).1.length = ms.length ∧
    (fitLoop rows ms err).2 = residual (fun x => ((fitLoop rows ms err).1.map (fun p => p x)).sum) rows err ∧
    ∀ (k : Nat) (m : Learner X V) (p : X → V), ms[k]? = some m → (fitLoop rows ms err).1[k]? = some p →
      p = m rows (residual (fun x => (((fitLoop rows ms err).1.take k).map (fun q => q x)).sum) rows err) := by
  have hzero : ∀ (e : List V), e.length = rows.length → residual (fun _ => (0 : V)) rows e = e := by
    intro e he
    apply List.ext_getElem?
    intro i
    simp only [residual, List.getElem?_zipWith]
    by_cases hi : i < rows.length
    · rw [List.getElem?_eq_getElem hi, List.getElem?_eq_getElem (by omega)]; simp
    · rw [List.getElem?_eq_none (by omega), List.getElem?_eq_none (by omega)]
  induction ms generalizing err with
  | nil =>
    refine ⟨rfl, ?_, ?_⟩
    · simp only [fitLoop, List.map_nil, List.sum_nil]; exact (hzero err hl).symm
    · intro k m p h; simp at h
  | cons m ms ih =>
    set p := m rows err with hp
    set err' := List.zipWith (fun e h => e - h) err (rows.map p) with herr
    have hl' : err'.length = rows.length := by simp [herr, hl]
    obtain ⟨i1, i2, i3⟩ := ih err' hl'
    have hf : fitLoop rows (m :: ms) err = (p :: (fitLoop rows ms err').1, (fitLoop rows ms err').2) := rfl
    rw [hf]
    have hshift : ∀ (g : X → V), residual g rows err' = residual (fun x => p x + g x) rows err := by
      intro g
      apply List.ext_getElem?
      intro i
      simp only [residual, herr, List.getElem?_zipWith, List.getElem?_map]
      by_cases hi : i < rows.length
      · rw [List.getElem?_eq_getElem hi, List.getElem?_eq_getElem (by omega)]
        simp only [Option.map_some, Option.some.injEq]
        abel
      · rw [List.getElem?_eq_none (by omega), List.getElem?_eq_none (by omega)]
    refine ⟨by simp [i1], ?_, ?_⟩
    · simp only [List.map_cons, List.sum_cons]
      rw [i2, hshift]
    · intro k m' p' hm hp'
      cases k with
      | zero =>
        simp only [List.getElem?_cons_zero, Option.some.injEq] at hm hp'
        subst hm; subst hp'
        simp only [List.take_zero, List.map_nil, List.sum_nil]
        rw [hzero err hl]
      | succ k =>
        simp only [List.getElem?_cons_succ] at hm hp'
        rw [i3 k m' p' hm hp', hshift]
        simp only [List.take_succ_cons, List.map_cons, List.sum_cons]

/-- C74 (residual invariant): after the boosting fit the residual left is target minus the in-sample prediction of
the fitted object, and every stage was trained on target minus the prediction of the stages before it. -/
theorem C74_residual_invariant (mkScaler : List X → X → X) (ms : List (Learner X V)) (x : List X) (y : List V)
    (hl : y.length = x.length) :
    (addFit mkScaler ms x y).2.1.length = ms.length ∧
    (addFit mkScaler ms x y).2.2
      = residual (addPredict (addFit mkScaler ms x y).1 (addFit mkScaler ms x y).2.1) x y ∧
    ∀ (k : Nat) (m : Learner X V) (p : X → V), ms[k]? = some m → (addFit mkScaler ms x y).2.1[k]? = some p →
      p = m (x.map (addFit mkScaler ms x y).1)
        (residual (addPredict (addFit mkScaler ms x y).1 ((addFit mkScaler ms x y).2.1.take k)) x y) := by
  obtain ⟨h1, h2, h3⟩ := fitLoop_spec (x.map (mkScaler x)) ms y (by simp [hl])
  have hres : ∀ f : X → V, residual f (x.map (mkScaler x)) y = residual (fun a => f (mkScaler x a)) x y := by
    intro f; simp [residual, List.zipWith_map_left]
  refine ⟨h1, ?_, ?_⟩
  · simp only [addFit]
    rw [h2, hres]
    congr 1
    funext a
    rw [addPredict_eq_sum]
  · intro k m p hm hp
    simp only [addFit] at hp ⊢
    rw [h3 k m p hm hp, hres]
    congr 2
    funext a
    rw [addPredict_eq_sum]

end additive

/-! ### Training error never grows -/

/-- Specification: sum of squares. -/
def sse (e : List ℚ) : ℚ := (e.map (fun v => v * v)).sum

/-- C74 (training error): if every stage learner does at least as well in sum of squares as predicting zero (true
of least squares), the training residual of the ensemble after `k` stages is non-increasing in `k`. -/
theorem C74_training_error_monotone {X : Type} (rows : List X) (ms : List (Learner X ℚ)) (y : List ℚ)
    (hl : y.length = rows.length)
    (hm : ∀ m ∈ ms, ∀ e : List ℚ, e.length = rows.length → sse (residual (m rows e) rows e) ≤ sse e)
    (k : Nat) :
    sse (fitLoop rows ms y).2 ≤ sse (fitLoop rows (ms.take k) y).2 ∧
    sse (fitLoop rows (ms.take k) y).2 ≤ sse y := by
  have hstep : ∀ (l : List (Learner X ℚ)) (e : List ℚ), (∀ m ∈ l, m ∈ ms) → e.length = rows.length →
      sse (fitLoop rows l e).2 ≤ sse e ∧ (fitLoop rows l e).2.length = rows.length := by
    intro l
    induction l with
    | nil => intro e _ he; exact ⟨le_refl _, he⟩
    | cons m l ih =>
      intro e hml he
      have h1 := hm m (hml m List.mem_cons_self) e he
      have hz : List.zipWith (fun a h => a - h) e (rows.map (m rows e)) = residual (m rows e) rows e := by
        rw [residual, List.zipWith_comm]; simp [List.zipWith_map_left]
      have hlen : (residual (m rows e) rows e).length = rows.length := by simp [residual, he]
      have := ih (residual (m rows e) rows e) (fun a ha => hml a (List.mem_cons_of_mem _ ha)) hlen
      simp only [fitLoop, hz]
      exact ⟨le_trans this.1 h1, this.2⟩
  have happ : ∀ (l l' : List (Learner X ℚ)) (e : List ℚ),
      (fitLoop rows (l ++ l') e).2 = (fitLoop rows l' (fitLoop rows l e).2).2 := by
    intro l l'
    induction l with
    | nil => intro e; rfl
    | cons m l ih => intro e; simp only [List.cons_append, fitLoop]; exact ih _
  have h1 := hstep (ms.take k) y (fun m h => List.mem_of_mem_take h) hl
  refine ⟨?_, h1.1⟩
  have h2 := hstep (ms.drop k) (fitLoop rows (ms.take k) y).2 (fun m h => List.mem_of_mem_drop h) h1.2
  rw [← happ, List.take_append_drop] at h2
  exact h2.1

/-! ### BrutalRegressor -/

section brutal
variable {X : Type}

theorem brutalLoop_best (lr : ℚ) (rows : List X) (ms : List (Learner X ℚ)) (best : List (X → ℚ)) (err : List ℚ) :
    (brutalLoop lr rows ms best err).1 = best ++ (brutalLoop lr rows ms [] err).1 ∧
    (brutalLoop lr rows ms best err).2 = (brutalLoop lr rows ms [] err).2 := by
  induction ms generalizing best err with
  | nil => simp [brutalLoop]
  | cons m ms ih =>
    simp only [brutalLoop]
    have h1 := ih (best ++ [m rows err]) (List.zipWith (fun e h => e - h) err (rows.map fun x => lr * m rows err x))
    have h2 := ih ([] ++ [m rows err]) (List.zipWith (fun e h => e - h) err (rows.map fun x => lr * m rows err x))
    rw [h1.1, h1.2, h2.1, h2.2]
    simp

theorem brutalLoop_length (lr : ℚ) (rows : List X) (ms : List (Learner X ℚ)) (err : List ℚ) :
    (brutalLoop lr rows ms [] err).1.length = ms.length := by
  induction ms generalizing err with
  | nil => rfl
  | cons m ms ih =>
    simp only [brutalLoop]
    rw [(brutalLoop_best _ _ _ _ _).1]
    simp only [List.nil_append, List.length_append, List.length_cons, List.length_nil, ih]
    omega

theorem takeRows_range_append' {α : Type} (a b : List α) : takeRows (a ++ b) (List.range a.length) = .ok a := by
  rw [takeRows_ok_iff]
  apply List.ext_getElem?
  intro i
  simp only [List.getElem?_map]
  by_cases hi : i < a.length
  · simp [List.getElem?_range hi, List.getElem?_append_left hi, List.getElem?_eq_getElem hi]
  · have h1 : (List.range a.length)[i]? = none := by simp; omega
    have h2 : a[i]? = none := by simp; omega
    simp [h1, h2]

theorem foldl_lr (lr : ℚ) (ps : List (X → ℚ)) (x : X) (a : ℚ) :
    ps.foldl (fun acc p => acc + lr * p x) a = a + (ps.map (fun p => lr * p x)).sum := by
  induction ps generalizing a with
  | nil => simp
  | cons p ps ih => simp only [List.foldl_cons, ih, List.map_cons, List.sum_cons]; ring

theorem brutalLoop_residual (lr : ℚ) (rows : List X) (ms : List (Learner X ℚ)) (err : List ℚ)
    (hl : err.length = rows.length) :
    (brutalLoop lr rows ms [] err).2
      = residual (fun x => ((brutalLoop lr rows ms [] err).1.map (fun p => lr * p x)).sum) rows err := by
  induction ms generalizing err with
  | nil =>
    simp only [brutalLoop, List.map_nil, List.sum_nil]
    apply List.ext_getElem?
    intro i
    simp only [residual, List.getElem?_zipWith]
    by_cases hi : i < rows.length
    · rw [List.getElem?_eq_getElem hi, List.getElem?_eq_getElem (by omega)]; simp
    · rw [List.getElem?_eq_none (by omega), List.getElem?_eq_none (by omega)]
  | cons m ms ih =>
    simp only [brutalLoop]
    rw [(brutalLoop_best _ _ _ _ _).2, (brutalLoop_best _ _ _ _ _).1, ih _ (by simp [hl])]
    apply List.ext_getElem?
    intro i
    simp only [residual, List.getElem?_zipWith, List.getElem?_map]
    by_cases hi : i < rows.length
    · rw [List.getElem?_eq_getElem hi, List.getElem?_eq_getElem (by omega)]
      simp only [Option.map_some, List.nil_append, List.map_append, List.map_cons, List.map_nil,
        List.sum_append, List.sum_cons, List.sum_nil, Option.some.injEq]
      ring
    · rw [List.getElem?_eq_none (by omega), List.getElem?_eq_none (by omega)]

/-- C74 (BrutalRegressor): after the first fit with at least one stage, `predict` succeeds on every row and the
residual left by the loop is target minus in-sample prediction. -/
theorem C74_brutal_first_fit (lr : ℚ) (rows : List X) (y : List ℚ) (ms : List (Learner X ℚ))
    (hl : y.length = rows.length) (hm : ms ≠ []) :
    ∃ f : X → ℚ, (∀ x, brutalPredict lr ms.length (brutalLoop lr rows ms [] y).1 x = .ok (f x)) ∧
      (brutalLoop lr rows ms [] y).2 = residual f rows y := by
  refine ⟨_, ?_, brutalLoop_residual lr rows ms y hl⟩
  intro x
  have h0 : (brutalLoop lr rows ms [] y).1 ≠ [] := by
    intro h
    have := brutalLoop_length lr rows ms y
    rw [h] at this
    exact hm (List.length_eq_zero_iff.1 this.symm)
  have ht := takeRows_range_append' (brutalLoop lr rows ms [] y).1 []
  rw [List.append_nil, brutalLoop_length] at ht
  simp only [brutalPredict, List.isEmpty_iff, h0, if_false, ht, foldl_lr]
  simp

/-- C15 (BrutalRegressor): refitting has no effect on predictions: after any history of fits (each with `n_iter`
stages) the predictions are those of the first fit. -/
theorem C15_brutal_stale (lr : ℚ) (nIter : Nat) (rows : List X) (y : List ℚ) (ms : List (Learner X ℚ))
    (hm : ms.length = nIter) (hn : 0 < nIter)
    (rest : List (List X × List ℚ × List (Learner X ℚ))) (x : X) :
    brutalPredict lr nIter (brutalHistory lr [] ((rows, y, ms) :: rest)) x
      = brutalPredict lr nIter (brutalHistory lr [] [(rows, y, ms)]) x := by
  have hpre : ∀ (l : List (List X × List ℚ × List (Learner X ℚ))) (best : List (X → ℚ)),
      ∃ t, brutalHistory lr best l = best ++ t := by
    intro l
    induction l with
    | nil => intro best; exact ⟨[], by simp [brutalHistory]⟩
    | cons d l ih =>
      intro best
      obtain ⟨r, y', m'⟩ := d
      obtain ⟨t, ht⟩ := ih (brutalLoop lr r m' best y').1
      refine ⟨(brutalLoop lr r m' [] y').1 ++ t, ?_⟩
      simp only [brutalHistory, ht]
      rw [(brutalLoop_best _ _ _ _ _).1, List.append_assoc]
  have hlen := brutalLoop_length lr rows ms y
  rw [hm] at hlen
  obtain ⟨t, ht⟩ := hpre rest (brutalLoop lr rows ms [] y).1
  simp only [brutalHistory, ht]
  have h0 : (brutalLoop lr rows ms [] y).1 ≠ [] := by
    intro h; rw [h] at hlen; simp at hlen; omega
  have h1 := takeRows_range_append' (brutalLoop lr rows ms [] y).1 t
  have h2 := takeRows_range_append' (brutalLoop lr rows ms [] y).1 []
  rw [hlen] at h1 h2
  rw [List.append_nil] at h2
  simp [brutalPredict, h0, h1, h2]

theorem brutalHistory_length (lr : ℚ) (l : List (List X × List ℚ × List (Learner X ℚ))) : ∀ best : List (X → ℚ),
    (brutalHistory lr best l).length = best.length + (l.map (fun f => f.2.2.length)).sum := by
  induction l with
  | nil => intro best; simp [brutalHistory]
  | cons d l ih =>
    intro best
    obtain ⟨r, y, ms⟩ := d
    simp only [brutalHistory, ih, List.map_cons, List.sum_cons]
    rw [(brutalLoop_best _ _ _ _ _).1, List.length_append, brutalLoop_length]
    omega

/-- C15 (BrutalRegressor, when it can predict): after any history of fits `predict` raises exactly when no stage was fitted, or fewer than `n_iter` in total. -/
theorem C15_brutal_raises_iff (lr : ℚ) (nIter : Nat) (l : List (List X × List ℚ × List (Learner X ℚ))) (x : X) :
    (∃ e, brutalPredict lr nIter (brutalHistory lr [] l) x = .error e) ↔
      (l.map (fun f => f.2.2.length)).sum = 0 ∨ (l.map (fun f => f.2.2.length)).sum < nIter := by
  have hlen := brutalHistory_length lr l []
  rw [List.length_nil, Nat.zero_add] at hlen
  rw [← hlen]
  generalize brutalHistory lr [] l = best
  unfold brutalPredict
  by_cases h0 : best = []
  · subst h0
    simp
  · have hpos : 0 < best.length := List.length_pos_iff.mpr h0
    simp only [List.isEmpty_iff, h0, if_false]
    by_cases hn : best.length < nIter
    · have : ∀ r, takeRows best (List.range nIter) ≠ .ok r := by
        intro r hr
        rw [takeRows_ok_iff] at hr
        have := congrArg (fun l => l[best.length]?) hr
        simp only [List.getElem?_map, List.getElem?_range hn, Option.map_some, List.getElem?_eq_none (le_refl _)] at this
        cases h : r[best.length]? <;> rw [h] at this <;> cases this
      cases ht : takeRows best (List.range nIter) with
      | error e => simp [hn]
      | ok r => exact absurd ht (this r)
    · obtain ⟨r, hr, -⟩ := takeRows_ok_of_lt best (List.range nIter) (fun p hp => lt_of_lt_of_le (List.mem_range.mp hp) (not_lt.mp hn))
      rw [hr]
      simp only [reduceCtorEq, exists_false, false_iff, not_or]
      omega

end brutal

/-! ### The binned stage -/

/-- Specification: two values are not separated by any cut (a cut belongs to the bin above it). -/
def SameBin (inner : List ℚ) (a b : ℚ) : Prop := ∀ c ∈ inner, c ≤ a ↔ c ≤ b

theorem binOf_eq_iff (inner : List ℚ) (a b : ℚ) : binOf inner a = binOf inner b ↔ SameBin inner a b := by
  have key : ∀ (l : List ℚ) (u v : ℚ), u ≤ v → (binOf l u = binOf l v ↔ SameBin l u v) ∧ binOf l u ≤ binOf l v := by
    intro l u v huv
    induction l with
    | nil => simp [binOf, SameBin]
    | cons c l ih =>
      simp only [binOf, SameBin, List.countP_cons, List.mem_cons, forall_eq_or_imp] at ih ⊢
      by_cases h1 : c ≤ u
      · have h2 : c ≤ v := le_trans h1 huv
        simp only [h1, h2, decide_true, if_true, Nat.add_right_cancel_iff, true_and]
        exact ⟨by simpa using ih.1, by omega⟩
      · by_cases h2 : c ≤ v
        · simp only [h1, h2, decide_true, decide_false, if_true, Bool.false_eq_true, if_false]
          refine ⟨⟨fun h => ?_, fun h => ?_⟩, by omega⟩
          · omega
          · exact absurd h.1 (by simp)
        · simp only [h1, h2, decide_false, Bool.false_eq_true, if_false]
          simpa using ih
  rcases le_total a b with h | h
  · exact (key inner a b h).1
  · rw [eq_comm, (key inner b a h).1]
    exact ⟨fun h c hc => (h c hc).symm, fun h c hc => (h c hc).symm⟩

theorem sum_le_length_mul (l : List ℚ) (c : ℚ) (h : ∀ v ∈ l, v ≤ c) : l.sum ≤ l.length * c := by
  induction l with
  | nil => simp
  | cons a l ih =>
    have h1 := h a List.mem_cons_self
    have h2 := ih (fun v hv => h v (List.mem_cons_of_mem _ hv))
    simp only [List.sum_cons, List.length_cons, Nat.cast_add, Nat.cast_one]
    linarith

theorem length_mul_le_sum (l : List ℚ) (c : ℚ) (h : ∀ v ∈ l, c ≤ v) : l.length * c ≤ l.sum := by
  induction l with
  | nil => simp
  | cons a l ih =>
    have h1 := h a List.mem_cons_self
    have h2 := ih (fun v hv => h v (List.mem_cons_of_mem _ hv))
    simp only [List.sum_cons, List.length_cons, Nat.cast_add, Nat.cast_one]
    linarith

/-- A stage of `BrutalRegressor` predicts NaN for a row exactly when no bootstrap row has the same set of cuts
below it; otherwise its value lies between the smallest and the largest bootstrap target of the bin. A row of the
bootstrap sample itself never gets NaN. -/
theorem stage_nan_iff (inner : List ℚ) (boot : List (ℚ × ℚ)) (x : ℚ) :
    (stagePredict inner boot x = none ↔ ∀ r ∈ boot, binOf inner r.1 ≠ binOf inner x) ∧
    (∀ v, stagePredict inner boot x = some v → ∀ lo hi : ℚ,
      (∀ r ∈ boot, binOf inner r.1 = binOf inner x → lo ≤ r.2 ∧ r.2 ≤ hi) → lo ≤ v ∧ v ≤ hi) ∧
    (∀ r ∈ boot, stagePredict inner boot r.1 ≠ none) := by
  have hnone : ∀ z, stagePredict inner boot z = none ↔ ∀ r ∈ boot, binOf inner r.1 ≠ binOf inner z := by
    intro z
    simp only [stagePredict, binMean]
    split
    · rename_i h
      simp only [List.isEmpty_iff, List.map_eq_nil_iff, List.filter_eq_nil_iff, beq_iff_eq] at h
      simpa using h
    · rename_i h
      simp only [List.isEmpty_iff, List.map_eq_nil_iff, List.filter_eq_nil_iff, beq_iff_eq] at h
      simpa using h
  refine ⟨hnone x, ?_, ?_⟩
  · intro v hv lo hi hb
    simp only [stagePredict, binMean] at hv
    split at hv
    · cases hv
    · rename_i hne
      simp only [Option.some.injEq] at hv
      set sel := (boot.filter (fun r => binOf inner r.1 == binOf inner x)).map Prod.snd with hsel
      have hmem : ∀ w ∈ sel, lo ≤ w ∧ w ≤ hi := by
        intro w hw
        simp only [hsel, List.mem_map, List.mem_filter, beq_iff_eq] at hw
        obtain ⟨r, ⟨hr, he⟩, rfl⟩ := hw
        exact hb r hr he
      have hpos : (0 : ℚ) < sel.length := by
        have : sel ≠ [] := by simpa [List.isEmpty_iff] using hne
        exact_mod_cast List.length_pos_of_ne_nil this
      rw [← hv]
      constructor
      · rw [le_div_iff₀ hpos]
        have := length_mul_le_sum sel lo (fun w hw => (hmem w hw).1)
        linarith
      · rw [div_le_iff₀ hpos]
        have := sum_le_length_mul sel hi (fun w hw => (hmem w hw).2)
        linarith
  · intro r hr h
    exact (hnone r.1).1 h r hr rfl

/-- C78: a stage of `BrutalRegressor` predicts NaN for a row exactly when every bootstrap row is separated from it
by a cut; otherwise its value lies between the smallest and the largest bootstrap target of the bin. A row of the
bootstrap sample itself never gets NaN. -/
theorem C78_stage_nan_iff (inner : List ℚ) (boot : List (ℚ × ℚ)) (x : ℚ) :
    (stagePredict inner boot x = none ↔ ∀ r ∈ boot, ¬ SameBin inner r.1 x) ∧
    (∀ v, stagePredict inner boot x = some v → ∀ lo hi : ℚ,
      (∀ r ∈ boot, SameBin inner r.1 x → lo ≤ r.2 ∧ r.2 ≤ hi) → lo ≤ v ∧ v ≤ hi) ∧
    (∀ r ∈ boot, stagePredict inner boot r.1 ≠ none) := by
  have h := stage_nan_iff inner boot x
  simp only [binOf_eq_iff, ne_eq] at h
  exact h

/-! ### Concrete instances -/

/-- A "mean" learner: predicts the mean of the residual. -/
def meanLearner : Learner ℚ ℚ := fun _ e _ => e.sum / e.length

/-- A learner that predicts twice its feature. -/
def slopeLearner : Learner ℚ ℚ := fun _ _ x => 2 * x

example : (addFit (fun _ v => v + 1) [slopeLearner, meanLearner] [0, 1, 3] [1, 5, 6]).2.2 = [-1/3, 5/3, -4/3] ∧
    ([0, 1, 3] : List ℚ).map (addPredict (fun v => v + 1)
      (addFit (fun _ v => v + 1) [slopeLearner, meanLearner] [0, 1, 3] [1, 5, 6]).2.1) = [4/3, 10/3, 22/3] := by
  decide +kernel

/-- The hypothesis of `C74_training_error_monotone` holds for the mean learner (here on two rows). -/
example : ∀ m ∈ [meanLearner, meanLearner], ∀ e : List ℚ, e.length = ([4, 9] : List ℚ).length →
    sse (residual (m [4, 9] e) [4, 9] e) ≤ sse e := by
  intro m hm e he
  have : m = meanLearner := by simpa using hm
  subst this
  match e, he with
  | [a, b], _ =>
    simp only [sse, residual, meanLearner, List.zipWith_cons_cons, List.zipWith_nil_left, List.map_cons, List.map_nil,
      List.sum_cons, List.sum_nil, List.length_cons, List.length_nil]
    norm_num
    nlinarith [sq_nonneg (a + b)]

example : binOf [1, 3] 2 = 1 ∧ stagePredict [1, 3] [(0, 4), (2, 6), (1, 8)] (5 / 2) = some 7 ∧
    stagePredict [1, 3] [(0, 4), (2, 6)] 7 = none := by decide +kernel

/-- C15: one stage fitted twice: two steps can be predicted, three cannot. -/
example : (∃ v, brutalPredict (X := ℚ) 1 2 (brutalHistory 1 [] [([1], [3], [fun _ _ x => x]), ([1], [3], [fun _ _ x => 2 * x])]) 5 = .ok v) ∧
    ∃ e, brutalPredict (X := ℚ) 1 3 (brutalHistory 1 [] [([1], [3], [fun _ _ x => x]), ([1], [3], [fun _ _ x => 2 * x])]) 5 = .error e :=
  ⟨⟨15, by decide +kernel⟩, (C15_brutal_raises_iff _ _ _ _).mpr (by simp)⟩

end PyF.Boost
