import Verif.Fast.Model
import Mathlib.Tactic.Linarith
import Mathlib.Tactic.Ring
import Mathlib.Tactic.FieldSimp
import Mathlib.Tactic.FinCases
import Mathlib.Algebra.BigOperators.Ring.List
import Mathlib.Algebra.Order.BigOperators.Ring.Finset
import Mathlib.Algebra.BigOperators.Field

namespace PyF.Fast

/-! ### C42 -/

/-- The last `m` elements. -/
def lastM {α : Type} (m : Nat) (l : List α) : List α := l.drop (l.length - m)

/-- C42: at sample `i` of a call the model sees exactly the last `m` samples of the stored window followed by the call's
samples up to `i`. -/
theorem C42_window {α : Type} (y w : List α) (i : Nat) (hm : 1 ≤ w.length) (hi : i < y.length) :
    recentHistory y w (i + 1 - w.length) i = .ok (lastM w.length (w ++ y.take (i + 1))) := by
  unfold recentHistory lastM
  have hlen : (slice y (i + 1 - w.length) (i + 1)).length = min (i + 1) w.length := by
    unfold slice
    rw [List.length_drop, List.length_take]
    omega
  simp only [hlen]
  have htot : (w ++ y.take (i + 1)).length = w.length + (i + 1) := by
    rw [List.length_append, List.length_take]; omega
  rw [htot, show w.length + (i + 1) - w.length = i + 1 by omega]
  by_cases h : w.length ≤ i + 1
  · rw [if_pos (by omega)]
    congr 1
    unfold slice
    rw [List.drop_append, List.drop_eq_nil_of_le h, List.nil_append]
  · rw [if_neg (by omega), if_neg (by omega)]
    congr 1
    rw [show min (i + 1) w.length = i + 1 by omega]
    unfold slice rollLeft
    rw [show i + 1 - w.length = 0 by omega, List.drop_zero, List.take_append_of_le_length (by rw [List.length_drop]),
      List.take_of_length_le (by rw [List.length_drop]), List.drop_append_of_le_length (by omega)]

theorem lastM_append {α : Type} (m : Nat) (a b : List α) : lastM m (lastM m a ++ b) = lastM m (a ++ b) := by
  unfold lastM
  rw [List.drop_append, List.drop_append, List.drop_drop]
  simp only [List.length_append, List.length_drop]
  rw [show a.length - m + (a.length - (a.length - m) + b.length - m) = a.length + b.length - m by omega,
    show a.length - (a.length - m) + b.length - m - (a.length - (a.length - m)) = a.length + b.length - m - a.length by omega]

/-- C42 (calls): the window does not depend on how the samples were distributed over calls: feeding `y1` and then `y2` (the
first call's last window being stored) gives at sample `i` of the second call the window of one call over both. -/
theorem C42_split {α : Type} (y1 y2 w w1 : List α) (i : Nat) (hm : 1 ≤ w.length) (hy : y1 ≠ []) (hi : i < y2.length)
    (h1 : recentHistory y1 w (y1.length - w.length) (y1.length - 1) = .ok w1) :
    recentHistory y2 w1 (i + 1 - w1.length) i = recentHistory (y1 ++ y2) w (y1.length + i + 1 - w.length) (y1.length + i) := by
  have hl : 1 ≤ y1.length := List.length_pos_of_ne_nil hy
  have e := C42_window y1 w (y1.length - 1) hm (by omega)
  rw [show y1.length - 1 + 1 = y1.length by omega, h1] at e
  simp only [Except.ok.injEq] at e
  have hw1 : w1.length = w.length := by
    rw [e, lastM, List.length_drop, List.length_append, List.length_take]; omega
  rw [C42_window y2 w1 i (by omega) hi, C42_window (y1 ++ y2) w (y1.length + i) hm (by rw [List.length_append]; omega), hw1, e,
    lastM_append]
  congr 2
  rw [List.take_of_length_le (le_refl _), List.append_assoc, show y1.length + i + 1 = y1.length + (i + 1) by omega, List.take_length_add_append]

/-! ### Fourier_es: acceptance -/

section fourier
variable {K : Type} [Field K]

theorem pySlice_pos (n s k : Nat) (h : s + k ≤ n) : pySlice n (s : Int) ((s : Int) + k) = (List.range k).map (fun (h : Nat) => s + h) := by
  unfold pySlice
  simp only
  rw [if_neg (by omega), if_neg (by omega)]
  rw [show min ((s : Int)).toNat n = s by omega, show min ((s : Int) + k).toNat n = s + k by omega]
  rw [List.range_add, List.drop_append_of_le_length (by simp), List.drop_eq_nil_of_le (by simp), List.nil_append]

theorem project'_eq (c : Fcfg K) (hp : c.period ≤ c.m) (hm : 1 ≤ c.m) (i : Nat) (x : Fin (c.d + 1) → K) :
    project' c i x = (List.range c.nsa).map (fun (h : Nat) => dot (c.B (i % c.m + (c.m - c.period) + h)) x) := by
  unfold project'
  have hlt := Nat.mod_lt i (show 0 < c.m by omega)
  have := pySlice_pos c.rows (i % c.m + (c.m - c.period)) c.nsa (by unfold Fcfg.rows; have := le_max_left c.nsa c.period; omega)
  rw [show ((i % c.m + c.m : Nat) : Int) - c.period = ((i % c.m + (c.m - c.period) : Nat) : Int) by omega, this, List.map_map]
  rfl

/-- C90: with a horizon longer than the window and the default `periodicity = n_sa`, every `fit` and `predict` of `Fourier_es`
fails with `IndexError` at the first sample, for every state of the object. -/
theorem C90_horizon_longer_than_window (c : Fcfg K) (st : Fst K c.d) (y : List K) (hw : st.w.length = c.m) (hm : 1 ≤ c.m)
    (hper : c.period = c.nsa) (hn : c.m < c.nsa) : fRun c st y = .error .indexError := by
  unfold fRun
  cases y with
  | nil => rfl
  | cons y0 ys =>
    simp only
    have h0 : ∀ s, fStep c st.w (y0 :: ys) s 0 = .error .indexError := by
      intro s
      unfold fStep
      have := C42_window (y0 :: ys) st.w 0 (by omega) (by simp)
      rw [hw] at this
      rw [this]
      simp only
      have he : ∀ x, project' c 0 x = [] := by
        intro x
        unfold project' pySlice
        simp only
        rw [List.map_eq_nil_iff, List.drop_eq_nil_iff, List.length_range, hper]
        rw [Nat.zero_mod, if_neg (by omega), if_pos (by omega)]
        unfold Fcfg.rows
        rw [hper, Nat.max_self]
        omega
      rw [he]
    rw [List.length_cons, List.range_succ_eq_map]
    unfold fLoop
    rw [h0]

theorem fStep_ok (c : Fcfg K) (wInit y : List K) (s : Work K c.d) (i : Nat) (hw : wInit.length = c.m) (hm : 1 ≤ c.m)
    (hp : c.period ≤ c.m) (hn : 1 ≤ c.nsa) (hi : i < y.length) :
    ∃ s' r, fStep c wInit y s i = .ok (s', r) ∧ r.length = c.nsa := by
  unfold fStep
  have := C42_window y wInit i (by omega) hi
  rw [hw] at this
  rw [this]
  simp only
  rw [project'_eq c hp hm]
  obtain ⟨k, hk⟩ : ∃ k, c.nsa = k + 1 := ⟨c.nsa - 1, by omega⟩
  rw [hk, List.range_succ_eq_map, List.map_cons]
  exact ⟨_, _, rfl, by simp [addEps, hk]⟩

theorem fLoop_ok (c : Fcfg K) (wInit y : List K) (hw : wInit.length = c.m) (hm : 1 ≤ c.m) (hp : c.period ≤ c.m) (hn : 1 ≤ c.nsa) (is : List Nat)
    (hi : ∀ i ∈ is, i < y.length) : ∀ (s : Work K c.d), ∃ s' rs, fLoop c wInit y s is = .ok (s', rs) ∧ rs.length = is.length ∧ ∀ r ∈ rs, r.length = c.nsa := by
  induction is with
  | nil => intro s; exact ⟨s, [], rfl, rfl, by simp⟩
  | cons i is ih =>
    intro s
    obtain ⟨s1, r1, h1, l1⟩ := fStep_ok c wInit y s i hw hm hp hn (hi i (by simp))
    obtain ⟨s2, r2, h2, l2, l3⟩ := ih (fun j hj => hi j (by simp [hj])) s1
    refine ⟨s2, r1 :: r2, ?_, by simp [l2], by simp [l1]; exact l3⟩
    unfold fLoop
    rw [h1]
    simp only
    rw [h2]

/-- C90 (acceptance): with `periodicity ≤ m` every non-empty call succeeds and gives `n_sa` forecasts for each row. -/
theorem C90_accepts (c : Fcfg K) (st : Fst K c.d) (y : List K) (hw : st.w.length = c.m) (hm : 1 ≤ c.m) (hp : c.period ≤ c.m) (hn : 1 ≤ c.nsa)
    (hy : y ≠ []) : ∃ st' R, fRun c st y = .ok (st', R) ∧ R.length = y.length ∧ ∀ r ∈ R, r.length = c.nsa := by
  unfold fRun
  cases y with
  | nil => exact absurd rfl hy
  | cons y0 ys =>
    simp only
    obtain ⟨s, rs, h1, h2, h3⟩ := fLoop_ok c st.w (y0 :: ys) hw hm hp hn (List.range (y0 :: ys).length) (fun i hi => List.mem_range.1 hi)
      { x := initX c st y0, w := st.w, eps := st.eps, last := st.last }
    rw [h1]
    exact ⟨_, rs, rfl, by rw [h2, List.length_range], h3⟩

/-! ### C45 -/

/-- C45: `predict` of `Fourier_es` leaves the object as it was: after any sequence of predict calls (also failing ones) a
prediction is what it would have been at the start. -/
theorem C45_fourier_predict_pure (c : Fcfg K) (st : Fst K c.d) (ys : List (List K)) (y : List K) :
    fPredict c (ys.foldl (fun s z => match fPredict c s z with | .ok (s', _) => s' | .error _ => s) st) y = fPredict c st y := by
  have : ys.foldl (fun s z => match fPredict c s z with | .ok (s', _) => s' | .error _ => s) st = st := by
    induction ys with
    | nil => rfl
    | cons z ys ih =>
      rw [List.foldl_cons]
      have : (match fPredict c st z with | .ok (s', _) => s' | .error _ => st) = st := by
        unfold fPredict
        cases fRun c st z with
        | error e => rfl
        | ok r => rfl
      rw [this, ih]
  rw [this]

end fourier

theorem fkLoop_indep {S C Y R : Type} (k : FK S C Y R) (y : List Y) : ∀ (n j : Nat) (h1 h2 : List C) (s : S),
    j + n ≤ h1.length → j + n ≤ h2.length → h1.take j = h2.take j →
      (fkLoop k y h1 s ((List.range n).map (fun (i : Nat) => j + i))).1 = (fkLoop k y h2 s ((List.range n).map (fun (i : Nat) => j + i))).1 ∧
      (fkLoop k y h1 s ((List.range n).map (fun (i : Nat) => j + i))).2.2 = (fkLoop k y h2 s ((List.range n).map (fun (i : Nat) => j + i))).2.2 ∧
      (fkLoop k y h1 s ((List.range n).map (fun (i : Nat) => j + i))).2.1.length = h1.length := by
  intro n
  induction n with
  | zero => intro j h1 h2 s _ _ _; exact ⟨rfl, rfl, rfl⟩
  | succ n ih =>
    intro j h1 h2 s hl1 hl2 heq
    have hm : (List.range (n + 1)).map (fun (i : Nat) => j + i) = j :: (List.range n).map (fun (i : Nat) => (j + 1) + i) := by
      rw [List.range_succ_eq_map, List.map_cons, List.map_map]
      congr 1
      apply List.map_congr_left
      intro i _
      simp only [Function.comp]; omega
    rw [hm]
    have htk : (h1.set j (k.upd y j s).2.1).take (j + 1) = (h2.set j (k.upd y j s).2.1).take (j + 1) := by
      rw [List.take_set, List.take_set, List.take_add_one, List.take_add_one, heq]
      rw [List.getElem?_eq_getElem (by omega), List.getElem?_eq_getElem (by omega)]
      simp only [Option.toList_some]
      rw [List.set_append_right _ _ (by rw [List.length_take]; omega), List.set_append_right _ _ (by rw [List.length_take]; omega), List.length_take,
        show j - min j h2.length = 0 by omega]
      rfl
    have htk2 : (h1.set j (k.upd y j s).2.1).take j = (h2.set j (k.upd y j s).2.1).take j := by
      have := congrArg (List.take j) htk
      rwa [List.take_take, List.take_take, show min j (j + 1) = j by omega] at this
    simp only [fkLoop]
    rw [htk2]
    obtain ⟨i1, i2, i3⟩ := ih (j + 1) (h1.set j (k.upd y j s).2.1) (h2.set j (k.upd y j s).2.1)
      (if j % k.m = 0 ∧ k.m ≤ j then k.refresh (k.upd y j s).1 ((h2.set j (k.upd y j s).2.1).take j) else (k.upd y j s).1)
      (by rw [List.length_set]; omega) (by rw [List.length_set]; omega) htk
    refine ⟨i1, by rw [i2], ?_⟩
    rw [i3, List.length_set]

theorem fkRun_spec {S C Y R : Type} (k : FK S C Y R) (o : FKObj S C) (h' : List C) (y : List Y) (fit : Bool) :
    (fkRun k o y fit).2 = (fkRun k { o with hist := h' } y fit).2 ∧
      (fkRun k o y fit).1.states = (fkRun k { o with hist := h' } y fit).1.states ∧
      (fkRun k o y fit).1.hist.length = o.hist.length + y.length := by
  have hr : List.range y.length = (List.range y.length).map (fun (i : Nat) => 0 + i) := by simp
  obtain ⟨a, b, d⟩ := fkLoop_indep k y y.length 0 (o.hist ++ List.replicate y.length k.zero) (h' ++ List.replicate y.length k.zero) o.states
    (by simp) (by simp) rfl
  rw [← hr] at a b d
  refine ⟨b, ?_, ?_⟩
  · simp only [fkRun]
    rw [a]
  · simp only [fkRun]
    rw [d]
    simp

/-- C45 (FK): predictions of `FK` never depend on earlier predict calls, although each of them lengthens the stored
coefficient history by its number of rows: after any sequence of predict calls the predictions and states are those of the
original object and the history has grown by the total number of rows. -/
theorem C45_fk_predict (S C Y R : Type) (k : FK S C Y R) (o : FKObj S C) (ys : List (List Y)) (y : List Y) :
    (fkRun k (ys.foldl (fun o z => (fkRun k o z false).1) o) y false).2 = (fkRun k o y false).2 ∧
      (ys.foldl (fun o z => (fkRun k o z false).1) o).states = o.states ∧
      (ys.foldl (fun o z => (fkRun k o z false).1) o).hist.length = o.hist.length + (ys.map List.length).sum := by
  have key : (ys.foldl (fun o z => (fkRun k o z false).1) o).states = o.states ∧
      (ys.foldl (fun o z => (fkRun k o z false).1) o).hist.length = o.hist.length + (ys.map List.length).sum := by
    induction ys generalizing o with
    | nil => simp
    | cons z ys ih =>
      rw [List.foldl_cons]
      obtain ⟨i1, i2⟩ := ih (fkRun k o z false).1
      refine ⟨by rw [i1]; rfl, ?_⟩
      rw [i2, (fkRun_spec k o [] z false).2.2, List.map_cons, List.sum_cons]
      omega
  refine ⟨?_, key⟩
  set o' := ys.foldl (fun o z => (fkRun k o z false).1) o with ho
  have h1 := (fkRun_spec k o' o.hist y false).1
  rw [h1]
  have : ({ o' with hist := o.hist } : FKObj S C) = o := by
    cases o
    simp only [FKObj.mk.injEq, and_true]
    exact key.1
  rw [this]

/-! ### C43 -/

/-- C43: unless all coefficients are zero the weights of the experts are non-negative and sum to one, so the forecast of
`FK_multi` lies between any bounds on the experts' forecasts; with all coefficients zero it is NaN. -/
theorem C43_envelope {n : Nat} (x : Fin n → ℝ) :
    (weights x = none ↔ ∀ j, x j = 0) ∧
      ∀ w, weights x = some w → (∀ j, 0 ≤ w j) ∧ ∑ j, w j = 1 ∧
        ∀ (p : Fin n → ℝ) (a b : ℝ), (∀ j, a ≤ p j ∧ p j ≤ b) → a ≤ combine w p ∧ combine w p ≤ b := by
  unfold weights
  constructor
  · split
    · rename_i h
      simp only [true_iff]
      intro j
      have := (Finset.sum_eq_zero_iff_of_nonneg (fun j _ => abs_nonneg (x j))).1 h j (Finset.mem_univ j)
      exact abs_eq_zero.1 this
    · rename_i h
      simp only [reduceCtorEq, false_iff]
      intro h0
      apply h
      simp [h0]
  · intro w hw
    split at hw
    · cases hw
    · rename_i h
      simp only [Option.some.injEq] at hw
      subst hw
      have hS : 0 < ∑ k, |x k| := lt_of_le_of_ne (Finset.sum_nonneg (fun j _ => abs_nonneg (x j))) (Ne.symm h)
      have hs1 : ∑ j, abs (x j / ∑ k, |x k|) = 1 := by
        simp only [abs_div, abs_of_pos hS]
        rw [← Finset.sum_div, div_self h]
      refine ⟨fun j => abs_nonneg _, hs1, ?_⟩
      intro p a b hab
      unfold combine
      constructor
      · calc a = ∑ j, a * abs (x j / ∑ k, |x k|) := by rw [← Finset.mul_sum, hs1, mul_one]
          _ ≤ _ := Finset.sum_le_sum (fun j _ => mul_le_mul_of_nonneg_right (hab j).1 (abs_nonneg _))
      · calc _ ≤ ∑ j, b * abs (x j / ∑ k, |x k|) := Finset.sum_le_sum (fun j _ => mul_le_mul_of_nonneg_right (hab j).2 (abs_nonneg _))
          _ = b := by rw [← Finset.mul_sum, hs1, mul_one]

/-! ### C89 -/

theorem sum_const_list (n : Nat) (v : ℝ) : ((List.range n).map (fun (_ : Nat) => v)).sum = n * v := by
  rw [List.map_const', List.sum_replicate, List.length_range, nsmul_eq_mul]

/-- C89: row `r`, step `sa` of the experts' forecasts is for time `r + 1 + sa`, but the error at row `i` compares forecasts for
time `i + 1` with the observation at time `i`. An expert whose forecasts are all exact is charged `|y(i+1) - y(i)|`, one
whose forecasts are one step late is charged nothing and gets the larger coefficient whenever the signal moves. -/
theorem C89_expert_errors_misaligned {n : Nat} (nsa : Nat) (hn : 1 ≤ nsa) (preds : Fin n → Nat → Nat → ℝ) (y : Nat → ℝ) (i : Nat) (hi : nsa ≤ i)
    (exact late : Fin n) (hex : ∀ r sa, preds exact r sa = y (r + 1 + sa)) (hla : ∀ r sa, preds late r sa = y (r + sa)) :
    expertErr nsa (preds exact) y i = |y (i + 1) - y i| ∧ expertErr nsa (preds late) y i = 0 ∧
      (y (i + 1) ≠ y i → expertCoeffs nsa preds y i exact < expertCoeffs nsa preds y i late) := by
  have hpos : (0 : ℝ) < nsa := by exact_mod_cast hn
  have h1 : expertErr nsa (preds exact) y i = |y (i + 1) - y i| := by
    unfold expertErr
    have : (List.range nsa).map (fun (sa : Nat) => |preds exact (i - sa) sa - y i|) = (List.range nsa).map (fun (_ : Nat) => |y (i + 1) - y i|) := by
      apply List.map_congr_left
      intro sa hsa
      rw [List.mem_range] at hsa
      rw [hex, show i - sa + 1 + sa = i + 1 by omega]
    rw [this, sum_const_list]
    field_simp
  have h2 : expertErr nsa (preds late) y i = 0 := by
    unfold expertErr
    have : (List.range nsa).map (fun (sa : Nat) => |preds late (i - sa) sa - y i|) = (List.range nsa).map (fun (_ : Nat) => (0 : ℝ)) := by
      apply List.map_congr_left
      intro sa hsa
      rw [List.mem_range] at hsa
      rw [hla, show i - sa + sa = i by omega, sub_self, abs_zero]
    rw [this, sum_const_list]
    simp
  refine ⟨h1, h2, ?_⟩
  intro hne
  unfold expertCoeffs
  simp only
  have hnn : ∀ k, 0 ≤ expertErr nsa (preds k) y i := by
    intro k
    unfold expertErr
    apply div_nonneg _ (le_of_lt hpos)
    apply List.sum_nonneg
    intro v hv
    obtain ⟨sa, _, rfl⟩ := List.mem_map.1 hv
    exact abs_nonneg _
  have hep : 0 < expertErr nsa (preds exact) y i := by
    rw [h1]; exact abs_pos.2 (sub_ne_zero.2 hne)
  have hsum : 0 < ∑ l, expertErr nsa (preds l) y i :=
    lt_of_lt_of_le hep (Finset.single_le_sum (f := fun l => expertErr nsa (preds l) y i) (fun k _ => hnn k) (Finset.mem_univ exact))
  have hn0 : 0 < n := Fin.pos exact
  have hm : 0 < (∑ l, expertErr nsa (preds l) y i) / (n : ℝ) := div_pos hsum (by exact_mod_cast hn0)
  apply div_lt_div_of_pos_right
  · rw [Real.exp_lt_exp, h2]
    have := div_pos hep hm
    rw [zero_div]
    linarith
  · exact Finset.sum_pos (fun k _ => Real.exp_pos _) ⟨exact, Finset.mem_univ _⟩

end PyF.Fast
