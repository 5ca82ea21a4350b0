import Verif.Bench.Model
import Verif.Hankel.Props
import Verif.Quantile.Props
import Mathlib.Algebra.BigOperators.Group.List.Basic
import Mathlib.Algebra.Order.BigOperators.Group.List
import Mathlib.Tactic.Linarith
import Mathlib.Tactic.IntervalCases
import Mathlib.Tactic.Set
import Mathlib.Algebra.BigOperators.Ring.List
import Mathlib.Tactic.FieldSimp

namespace PyF.Bench
open PyF.Hankel PyF.Quantile

/-! ### C34 -/

/-- C34: row `i`, step `j` of the persistence forecast is the value of the target at row `i`. -/
theorem C34_predict (nsa : Nat) (x : List ℚ) :
    (persistPredict nsa x).length = nsa ∧ ∀ i j, j < nsa → entry (persistPredict nsa x) i j = x[i]? := by
  refine ⟨by simp [persistPredict], ?_⟩
  intro i j hj
  simp [entry, persistPredict, hj]

theorem hankel_tail_ok (y : List ℚ) (nsa : Nat) (h : 1 ≤ nsa) :
    ∃ t, hankel (y.drop 1) nsa none = .ok t ∧ t.length = nsa ∧ (∀ c ∈ t, c.length = y.length - nsa) ∧
      ∀ i j, i < y.length - nsa → j < nsa → entry t i j = y[i + 1 + j]? := by
  obtain ⟨t, ht⟩ := (C33_windows (y.drop 1) nsa).1.2 h
  obtain ⟨h1, h2, h3⟩ := (C33_windows (y.drop 1) nsa).2 t ht
  have hl : (y.drop 1).length + 1 - nsa = y.length - nsa := by simp only [List.length_drop]; omega
  refine ⟨t, ht, h1, by rw [← hl]; exact h2, ?_⟩
  intro i j hi hj
  rw [(h3 i j (by omega) hj).2, List.getElem?_drop, show 1 + (i + j) = i + 1 + j by omega]

theorem subCols_ok (m n : Nat) (t p : List (List ℚ)) (ht : t.length = n) (hp : p.length = n) (ct : ∀ c ∈ t, c.length = m)
    (cp : ∀ c ∈ p, c.length = m) :
    ∃ e, subCols t p = .ok e ∧ e.length = n ∧ (∀ c ∈ e, c.length = m) ∧
      ∀ i j a b, entry t i j = some a → entry p i j = some b → entry e i j = some (a - b) := by
  have h1 : t.map List.length = List.replicate n m := by
    rw [List.eq_replicate_iff]; exact ⟨by simp [ht], by simpa using ct⟩
  have h2 : p.map List.length = List.replicate n m := by
    rw [List.eq_replicate_iff]; exact ⟨by simp [hp], by simpa using cp⟩
  unfold subCols
  rw [if_pos (h1.trans h2.symm)]
  refine ⟨_, rfl, by simp [ht, hp], ?_, ?_⟩
  · intro c hc
    obtain ⟨j, hj, rfl⟩ := List.mem_iff_getElem.1 hc
    rw [List.getElem_zipWith, List.length_zipWith, ct _ (List.getElem_mem _), cp _ (List.getElem_mem _), Nat.min_self]
  · intro i j a b ha hb
    unfold entry at *
    cases h3 : t[j]? with
    | none => rw [h3] at ha; cases ha
    | some c =>
      cases h4 : p[j]? with
      | none => rw [h4] at hb; cases hb
      | some d =>
        rw [h3] at ha; rw [h4] at hb
        simp only [Option.bind_some] at ha hb
        rw [List.getElem?_zipWith, h3, h4]
        simp only [Option.bind_some]
        rw [List.getElem?_zipWith, ha, hb]

/-- The errors of step `j + 1` that a forecast `f i j` made at row `i` should be judged by. -/
def stepErrors (y : List ℚ) (nsa : Nat) (f : Nat → Nat → ℚ) (j : Nat) : List ℚ :=
  (List.range (y.length - nsa)).map (fun i => y.getD (i + 1 + j) 0 - f i j)

theorem fitDistr_char (predict : List ℚ → Except PyErr (List (List ℚ))) (nsa : Nat) (qv y : List ℚ) (f : Nat → Nat → ℚ)
    (hn : 1 ≤ nsa) (p : List (List ℚ)) (hp : predict (y.take (y.length - nsa)) = .ok p) (hpl : p.length = nsa)
    (hpc : ∀ c ∈ p, c.length = y.length - nsa)
    (hpe : ∀ i j, i < y.length - nsa → j < nsa → entry p i j = some (f i j)) :
    fitDistr predict nsa qv y =
      if qv.any (fun q => q < 0 || 1 < q) then .error .valueError
      else if y.length ≤ nsa then .error .indexError
      else .ok ((List.range nsa).map (fun j => qv.map (quantileVal (stepErrors y nsa f j)))) := by
  obtain ⟨t, ht, t1, t2, t3⟩ := hankel_tail_ok y nsa hn
  obtain ⟨e, he, e1, e2, e3⟩ := subCols_ok (y.length - nsa) nsa t p t1 hpl t2 hpc
  have hcol : e = (List.range nsa).map (stepErrors y nsa f) := by
    apply List.ext_getElem (by simp [e1])
    intro j h1 h2
    have hj : j < nsa := by omega
    rw [List.getElem_map, List.getElem_range]
    have hlen : e[j].length = y.length - nsa := e2 _ (List.getElem_mem _)
    apply List.ext_getElem (by simp [stepErrors, hlen])
    intro i h3 h4
    have hi : i < y.length - nsa := by omega
    have ha : entry t i j = some (y.getD (i + 1 + j) 0) := by
      rw [t3 i j hi hj, List.getD_eq_getElem?_getD, List.getElem?_eq_getElem (by omega)]
      rfl
    have := e3 i j _ _ ha (hpe i j hi hj)
    unfold entry at this
    rw [List.getElem?_eq_getElem h1, Option.bind_some, List.getElem?_eq_getElem h3, Option.some.injEq] at this
    rw [this]
    simp [stepErrors]
  have hfe : fitErrs predict nsa y = .ok e := by
    unfold fitErrs dropTail
    rw [if_neg (by omega), ht]
    simp only [hp, he]
  unfold fitDistr
  rw [hfe]
  simp only
  unfold quantileCols
  by_cases hq : qv.any (fun q => q < 0 || 1 < q) = true
  · rw [if_pos hq, if_pos hq]
  · rw [if_neg hq, if_neg hq]
    by_cases hy : y.length ≤ nsa
    · rw [if_pos hy, if_pos]
      rw [List.any_eq_true]
      refine ⟨e[0]'(by omega), List.getElem_mem _, ?_⟩
      have := e2 _ (List.getElem_mem (show 0 < e.length by omega))
      rw [List.isEmpty_iff]
      exact List.length_eq_zero_iff.1 (by omega)
    · rw [if_neg hy, if_neg]
      · rw [hcol, List.map_map]; rfl
      · rw [List.any_eq_true]
        rintro ⟨c, hc, h⟩
        have := e2 c hc
        rw [List.isEmpty_iff] at h
        rw [h] at this
        simp at this
        omega

/-- C34 (errors): the fitted table holds, for step `j + 1`, the quantiles of `y(t+1+j) - y(t)` over exactly the rows `t`
whose future is known for all steps; with invalid levels or no such row the fit fails. -/
theorem C34_error_table (nsa : Nat) (hn : 1 ≤ nsa) (qv y : List ℚ) :
    fitDistr (fun x => .ok (persistPredict nsa x)) nsa qv y =
      if qv.any (fun q => q < 0 || 1 < q) then .error .valueError
      else if y.length ≤ nsa then .error .indexError
      else .ok ((List.range nsa).map (fun j => qv.map (quantileVal
        ((List.range (y.length - nsa)).map (fun t => y.getD (t + 1 + j) 0 - y.getD t 0))))) := by
  refine fitDistr_char _ nsa qv y (fun i _ => y.getD i 0) hn _ rfl (C34_predict _ _).1 ?_ ?_
  · intro c hc
    rw [List.eq_of_mem_replicate hc, List.length_take]; omega
  · intro i j hi hj
    rw [(C34_predict nsa _).2 i j hj, List.getElem?_take, if_pos hi, List.getD_eq_getElem?_getD,
      List.getElem?_eq_getElem (by omega)]
    rfl

/-- C34 (zero horizon): a horizon of zero is refused. -/
theorem C34_zero_horizon (predict : List ℚ → Except PyErr (List (List ℚ))) (qv y : List ℚ) :
    fitDistr predict 0 qv y = .error .valueError := rfl

theorem quantileVal_const (c q : ℚ) (n : Nat) (hn : 1 ≤ n) (h0 : 0 ≤ q) (h1 : q ≤ 1) :
    quantileVal (List.replicate n c) q = c := by
  have hne : List.replicate n c ≠ [] := by simp; omega
  have hE := quantileVal_isEmpirical hne h0 h1
  have := within_of_isEmpirical hne h0 h1 hE
  obtain ⟨⟨a, ha, h2⟩, b, hb, h3⟩ := this
  rw [List.eq_of_mem_replicate ha] at h2
  rw [List.eq_of_mem_replicate hb] at h3
  linarith

/-- C34 (degenerate): trained on a constant series, every quantile of every step is the current value. -/
theorem C34_constant_series (nsa : Nat) (hn : 1 ≤ nsa) (qv : List ℚ) (hq : ∀ q ∈ qv, 0 ≤ q ∧ q ≤ 1) (c : ℚ) (n : Nat)
    (hlen : nsa < n) (v : ℚ) :
    ∃ d, fitDistr (fun x => .ok (persistPredict nsa x)) nsa qv (List.replicate n c) = .ok d ∧
      addDistr d (List.replicate nsa v) = List.replicate nsa (List.replicate qv.length v) := by
  have hq' : ¬ qv.any (fun q => q < 0 || 1 < q) = true := by
    rw [levels_ok hq]; simp
  refine ⟨_, by rw [C34_error_table nsa hn, if_neg hq', if_neg (by simp; omega)], ?_⟩
  have hcol : ∀ j, j < nsa → (List.range ((List.replicate n c).length - nsa)).map
      (fun t => (List.replicate n c).getD (t + 1 + j) 0 - (List.replicate n c).getD t 0) = List.replicate (n - nsa) 0 := by
    intro j hj
    rw [List.eq_replicate_iff]
    refine ⟨by simp, ?_⟩
    intro b hb
    simp only [List.length_replicate, List.mem_map, List.mem_range] at hb
    obtain ⟨t, ht, rfl⟩ := hb
    simp only [List.getD_eq_getElem?_getD, List.getElem?_replicate]
    rw [if_pos (by omega), if_pos (by omega)]
    simp
  unfold addDistr
  apply List.ext_getElem (by simp)
  intro j h1 h2
  have hj : j < nsa := by simpa using h2
  simp only [List.getElem_zipWith, List.getElem_replicate, List.getElem_map, List.getElem_range]
  rw [hcol j hj, List.map_map, List.eq_replicate_iff]
  refine ⟨by simp, ?_⟩
  intro b hb
  obtain ⟨q, hqm, rfl⟩ := List.mem_map.1 hb
  simp only [Function.comp]
  rw [quantileVal_const 0 q _ (by omega) (hq q hqm).1 (hq q hqm).2, add_zero]

/-! ### C35 -/

/-- C35 (what is predicted): accepted exactly for a positive horizon of at most one more than the stored season (or no row to
predict); row `i`, step `j` is entry `i + j` of the stored season followed by the input. -/
theorem C35_predict (state x : List ℚ) (nsa : Nat) :
    ((∃ t, seasPredict state nsa x = .ok t) ↔ 1 ≤ nsa ∧ (x = [] ∨ nsa ≤ state.length + 1)) ∧
    ∀ t, seasPredict state nsa x = .ok t → t.length = nsa ∧ (∀ c ∈ t, c.length = x.length) ∧
      ∀ i j, i < x.length → j < nsa → (entry t i j).isSome ∧ entry t i j = (state ++ x)[i + j]? := by
  unfold seasPredict
  obtain ⟨a1, a2⟩ := C33_windows (state ++ x) nsa
  have hxl : x = [] ↔ x.length = 0 := List.length_eq_zero_iff.symm
  constructor
  · cases h : hankel (state ++ x) nsa none with
    | error e =>
      simp only [reduceCtorEq, exists_false, false_iff]
      rintro ⟨h1, -⟩
      obtain ⟨t, ht⟩ := a1.2 h1
      rw [h] at ht
      cases ht
    | ok t =>
      have hn := a1.1 ⟨t, h⟩
      simp only
      rw [hxl]
      rw [List.length_append]
      constructor
      · rintro ⟨_, h1⟩
        refine ⟨hn, ?_⟩
        split at h1
        · cases h1
        · omega
      · rintro ⟨-, h1⟩
        rw [if_neg (by omega)]
        exact ⟨_, rfl⟩
  · intro t' ht'
    cases h : hankel (state ++ x) nsa none with
    | error e => rw [h] at ht'; cases ht'
    | ok t =>
      rw [h] at ht'
      simp only at ht'
      split at ht'
      · cases ht'
      · rename_i hle
        injection ht' with ht'
        subst ht'
        obtain ⟨b1, b2, b3⟩ := a2 t h
        refine ⟨by simp [b1], ?_, ?_⟩
        · intro c hc
          obtain ⟨d, hd, rfl⟩ := List.mem_map.1 hc
          rw [List.length_take, b2 d hd]; omega
        · intro i j hi hj
          have h3 := b3 i j (by omega) hj
          have : entry (t.map (fun c => c.take x.length)) i j = entry t i j := by
            unfold entry
            rw [List.getElem?_map]
            cases t[j]? with
            | none => rfl
            | some c => simp [hi]
          rw [this]
          exact h3

/-- A signal that the training data and the input are consecutive parts of: `xtr` ends just before time `t0`, `x` begins
there. -/
def Consecutive (sig : Nat → ℚ) (t0 : Nat) (xtr x : List ℚ) : Prop :=
  xtr.length ≤ t0 ∧ (∀ k, k < xtr.length → xtr[k]? = some (sig (t0 - xtr.length + k))) ∧
    ∀ k, k < x.length → x[k]? = some (sig (t0 + k))

/-- C35 (lag): with seasonality `s`, the forecast made at row `i` for step `j + 1`, that is for time `t0 + i + 1 + j`, is the
value `s + 1` steps before that time, not `s` (for steps that lie within the known values). -/
theorem C35_lag_is_one_too_long (sig : Nat → ℚ) (t0 s nsa : Nat) (xtr x : List ℚ) (hc : Consecutive sig t0 xtr x)
    (hs : 1 ≤ s) (hsx : s ≤ xtr.length) (t : List (List ℚ)) (h : seasPredict (lastN s xtr) nsa x = .ok t) (i j : Nat)
    (hi : i < x.length) (hj : j < nsa) : entry t i j = some (sig (t0 + i + 1 + j - (s + 1))) := by
  obtain ⟨c1, c2, c3⟩ := hc
  have hst : lastN s xtr = xtr.drop (xtr.length - s) := by unfold lastN; rw [if_neg (by omega)]
  have hl : (lastN s xtr).length = s := by rw [hst, List.length_drop]; omega
  obtain ⟨e1, e2⟩ := ((C35_predict (lastN s xtr) x nsa).2 t h).2.2 i j hi hj
  rw [e2]
  by_cases hk : i + j < s
  · rw [List.getElem?_append_left (by omega), hst, List.getElem?_drop, c2 _ (by omega)]
    congr 2
    omega
  · have hn : i + j - s < x.length := by
      rw [e2] at e1
      by_contra hc'
      rw [List.getElem?_eq_none (by rw [List.length_append, hl]; omega)] at e1
      cases e1
    rw [List.getElem?_append_right (by omega), hl, c3 _ hn]
    congr 2
    omega

/-- C35 (exactness): on a signal of period `s` all forecasts of a call are exact precisely when the signal does not change
from one step to the next over the forecast times. -/
theorem C35_exact_iff_constant (sig : Nat → ℚ) (t0 s nsa : Nat) (hper : ∀ t, sig (t + s) = sig t) (xtr x : List ℚ)
    (hc : Consecutive sig t0 xtr x) (hs : 1 ≤ s) (hsx : s ≤ xtr.length) (t : List (List ℚ))
    (h : seasPredict (lastN s xtr) nsa x = .ok t) :
    (∀ i j, i < x.length → j < nsa → entry t i j = some (sig (t0 + i + 1 + j))) ↔
      ∀ i j, i < x.length → j < nsa → sig (t0 + i + j) = sig (t0 + i + j + 1) := by
  have hge : s ≤ t0 := le_trans hsx hc.1
  refine forall_congr' fun i => forall_congr' fun j => forall_congr' fun hi => forall_congr' fun hj => ?_
  rw [C35_lag_is_one_too_long sig t0 s nsa xtr x hc hs hsx t h i j hi hj, Option.some.injEq]
  have h1 : sig (t0 + i + 1 + j - (s + 1)) = sig (t0 + i + j) := by
    rw [← hper (t0 + i + 1 + j - (s + 1))]
    congr 1
    omega
  rw [h1, show t0 + i + 1 + j = t0 + i + j + 1 by omega]

/-- C35 (witness): for every seasonality `s ≥ 2` there is a signal of period `s` on which every forecast is wrong. -/
theorem C35_always_wrong (s : Nat) (hs : 2 ≤ s) :
    ∃ sig : Nat → ℚ, (∀ t, sig (t + s) = sig t) ∧ ∀ (t0 nsa : Nat) (xtr x : List ℚ), Consecutive sig t0 xtr x → s ≤ xtr.length →
      ∀ t, seasPredict (lastN s xtr) nsa x = .ok t → ∀ i j, i < x.length → j < nsa →
        entry t i j ≠ some (sig (t0 + i + 1 + j)) := by
  refine ⟨fun t => ((t % s : Nat) : ℚ), fun t => by simp, ?_⟩
  intro t0 nsa xtr x hc hsx t h i j hi hj
  rw [C35_lag_is_one_too_long _ t0 s nsa xtr x hc (by omega) hsx t h i j hi hj]
  simp only [ne_eq, Option.some.injEq, Nat.cast_inj]
  have hge : s ≤ t0 := le_trans hsx hc.1
  intro he
  have h1 : (t0 + i + 1 + j - (s + 1)) % s = (t0 + i + j) % s := by
    rw [← Nat.add_mod_right (t0 + i + 1 + j - (s + 1)) s]
    congr 1
    omega
  rw [h1] at he
  have h2 : t0 + i + 1 + j = t0 + i + j + 1 := by omega
  rw [h2] at he
  generalize t0 + i + j = a at he
  have h3 := Nat.sub_mod_eq_zero_of_mod_eq he.symm
  rw [show a + 1 - a = 1 by omega, Nat.mod_eq_of_lt (by omega)] at h3
  omega

/-- C35 (workaround): with seasonality set to one less than the true period `s + 1` all forecasts are exact. -/
theorem C35_exact_with_period_minus_one (sig : Nat → ℚ) (t0 s nsa : Nat) (hper : ∀ t, sig (t + (s + 1)) = sig t) (xtr x : List ℚ)
    (hc : Consecutive sig t0 xtr x) (hs : 1 ≤ s) (hsx : s ≤ xtr.length) (t : List (List ℚ))
    (h : seasPredict (lastN s xtr) nsa x = .ok t) (i j : Nat) (hi : i < x.length) (hj : j < nsa) :
    entry t i j = some (sig (t0 + i + 1 + j)) := by
  have hge : s ≤ t0 := le_trans hsx hc.1
  rw [C35_lag_is_one_too_long sig t0 s nsa xtr x hc hs hsx t h i j hi hj,
    ← hper (t0 + i + 1 + j - (s + 1)), show t0 + i + 1 + j - (s + 1) + (s + 1) = t0 + i + 1 + j by omega]

/-! ### C36 -/

variable {K : Type} [DecidableEq K] {T : Nat}

/-- The values of target `j` observed at time of day `k`. -/
def cell (rows : List (DRow K T)) (k : K) (j : Fin T) : List ℚ := (rows.filter (fun r => r.key = k)).map (fun r => r.y j)

theorem countIn_eq (rows : List (DRow K T)) (k : K) (j : Fin T) (v : ℚ) : countIn rows k j v = (cell rows k j).count v := by
  unfold countIn cell
  rw [List.count, List.countP_map]
  rfl

omit [DecidableEq K] in
theorem support_spec (rows : List (DRow K T)) : (support rows).Nodup ∧ ∀ v, v ∈ support rows ↔ ∃ r ∈ rows, ∃ j, r.y j = v := by
  unfold support
  have hp := List.perm_insertionSort (· ≤ ·) ((rows.flatMap (fun r => List.ofFn r.y)).dedup)
  refine ⟨hp.nodup_iff.2 (List.nodup_dedup _), ?_⟩
  intro v
  rw [hp.mem_iff, List.mem_dedup, List.mem_flatMap]
  simp only [List.mem_ofFn]

theorem sum_count (S l : List ℚ) (hS : S.Nodup) (hl : ∀ v ∈ l, v ∈ S) : (S.map (fun w => (l.count w : ℚ))).sum = l.length := by
  induction l with
  | nil => simp
  | cons a l ih =>
    have h1 : ∀ v ∈ l, v ∈ S := fun v hv => hl v (List.mem_cons_of_mem _ hv)
    have h2 : (fun w => (((a :: l).count w : Nat) : ℚ)) = fun w => (l.count w : ℚ) + (if a = w then 1 else 0) := by
      funext w
      rw [List.count_cons]
      push_cast
      simp [beq_iff_eq]
    rw [h2, List.sum_map_add, ih h1]
    have h3 : (S.map (fun w => if a = w then (1 : ℚ) else 0)).sum = 1 := by
      have ha : a ∈ S := hl a (by simp)
      clear ih h1 h2 hl
      induction S with
      | nil => cases ha
      | cons b S ihS =>
        rw [List.nodup_cons] at hS
        rw [List.map_cons, List.sum_cons]
        by_cases hab : a = b
        · subst hab
          have : (S.map (fun w => if a = w then (1 : ℚ) else 0)).sum = 0 := by
            apply List.sum_eq_zero
            intro x hx
            obtain ⟨w, hw, rfl⟩ := List.mem_map.1 hx
            rw [if_neg]
            rintro rfl
            exact hS.1 hw
          rw [if_pos rfl, this, add_zero]
        · rw [if_neg hab, zero_add]
          exact ihS hS.2 ((List.mem_cons.1 ha).resolve_left hab)
    rw [h3]
    push_cast [List.length_cons]
    ring

theorem sum_value_count (S l : List ℚ) (hS : S.Nodup) (hl : ∀ v ∈ l, v ∈ S) : (S.map (fun w => (l.count w : ℚ) * w)).sum = l.sum := by
  induction l with
  | nil => simp
  | cons a l ih =>
    have h1 : ∀ v ∈ l, v ∈ S := fun v hv => hl v (List.mem_cons_of_mem _ hv)
    have h2 : (fun w => (((a :: l).count w : Nat) : ℚ) * w) = fun w => (l.count w : ℚ) * w + (if a = w then a else 0) := by
      funext w
      rw [List.count_cons]
      push_cast
      by_cases h : a = w
      · subst h; simp; ring
      · simp [h]
    rw [h2, List.sum_map_add, ih h1]
    have h3 : (S.map (fun w => if a = w then a else 0)).sum = a := by
      have ha : a ∈ S := hl a (by simp)
      clear ih h1 h2 hl
      induction S with
      | nil => cases ha
      | cons b S ihS =>
        rw [List.nodup_cons] at hS
        rw [List.map_cons, List.sum_cons]
        by_cases hab : a = b
        · subst hab
          have : (S.map (fun w => if a = w then a else 0)).sum = 0 := by
            apply List.sum_eq_zero
            intro x hx
            obtain ⟨w, hw, rfl⟩ := List.mem_map.1 hx
            rw [if_neg]
            rintro rfl
            exact hS.1 hw
          rw [if_pos rfl, this, add_zero]
        · rw [if_neg hab, zero_add]
          exact ihS hS.2 ((List.mem_cons.1 ha).resolve_left hab)
    rw [h3, List.sum_cons]
    ring

theorem cell_sub (rows : List (DRow K T)) (k : K) (j : Fin T) : ∀ v ∈ cell rows k j, v ∈ support rows := by
  intro v hv
  unfold cell at hv
  obtain ⟨r, hr, rfl⟩ := List.mem_map.1 hv
  exact ((support_spec rows).2 _).2 ⟨r, List.mem_of_mem_filter hr, j, rfl⟩

theorem any_key (rows : List (DRow K T)) (k : K) (j : Fin T) : rows.any (fun r => r.key = k) = true ↔ cell rows k j ≠ [] := by
  unfold cell
  rw [ne_eq, List.map_eq_nil_iff, List.filter_eq_nil_iff, List.any_eq_true]
  push Not
  rfl

theorem eps_pos : 0 < eps := by unfold eps; norm_num

/-- C36 (probabilities): at a time of day with training rows, the probability of a value is its number of occurrences over
`N + 1e-12`, `N` the number of rows at that time of day; at any other time of day it is NaN. -/
theorem C36_probability (rows : List (DRow K T)) (k : K) (j : Fin T) (v : ℚ) :
    prob rows k j v = if cell rows k j = [] then none
      else some (((cell rows k j).count v : ℚ) / ((cell rows k j).length + 1 / 10 ^ 12)) := by
  unfold prob
  have h1 : ((support rows).map (fun w => (countIn rows k j w : ℚ))).sum = (cell rows k j).length := by
    rw [← sum_count (support rows) (cell rows k j) (support_spec rows).1 (cell_sub rows k j)]
    simp only [countIn_eq]
  by_cases h : cell rows k j = []
  · rw [if_pos h, if_neg (fun h2 => (any_key rows k j).1 h2 h)]
  · rw [if_neg h, if_pos ((any_key rows k j).2 h), h1, countIn_eq]
    norm_num [eps]

/-- C36 (sub-probability): probabilities are non-negative, zero exactly for values never seen at that time of day, ordered as
the counts, and over the support they sum to `N / (N + 1e-12)`, strictly below one and within `1e-12` of it. -/
theorem C36_sub_probability (rows : List (DRow K T)) (k : K) (j : Fin T) (hk : cell rows k j ≠ []) :
    ∃ p : ℚ → ℚ, (∀ v, prob rows k j v = some (p v)) ∧ (∀ v, 0 ≤ p v) ∧ (∀ v, p v = 0 ↔ v ∉ cell rows k j) ∧
      (∀ v w, p v ≤ p w ↔ (cell rows k j).count v ≤ (cell rows k j).count w) ∧
      ((support rows).map p).sum < 1 ∧ 1 - ((support rows).map p).sum < 1 / 10 ^ 12 := by
  set N : ℚ := ((cell rows k j).length : ℚ) with hN
  have hN1 : 1 ≤ N := by
    rw [hN]
    have : 1 ≤ (cell rows k j).length := List.length_pos_of_ne_nil hk
    exact_mod_cast this
  have hpos : 0 < N + 1 / 10 ^ 12 := by positivity
  refine ⟨fun v => ((cell rows k j).count v : ℚ) / (N + 1 / 10 ^ 12), ?_, ?_, ?_, ?_, ?_⟩
  · intro v; rw [C36_probability, if_neg hk]
  · intro v; positivity
  · intro v
    rw [div_eq_zero_iff]
    constructor
    · rintro (h | h)
      · exact List.count_eq_zero.1 (by exact_mod_cast h)
      · exact absurd h (ne_of_gt hpos)
    · intro h; left; exact_mod_cast List.count_eq_zero.2 h
  · intro v w
    rw [div_le_div_iff_of_pos_right hpos]
    exact Nat.cast_le
  · have hs : ((support rows).map (fun v => ((cell rows k j).count v : ℚ) / (N + 1 / 10 ^ 12))).sum = N / (N + 1 / 10 ^ 12) := by
      have : (fun v => ((cell rows k j).count v : ℚ) / (N + 1 / 10 ^ 12)) =
          fun v => ((cell rows k j).count v : ℚ) * (N + 1 / 10 ^ 12)⁻¹ := by funext v; rw [div_eq_mul_inv]
      rw [this, List.sum_map_mul_right, sum_count _ _ (support_spec rows).1 (cell_sub rows k j), ← div_eq_mul_inv]
    rw [hs]
    constructor
    · rw [div_lt_one hpos]
      have : (0 : ℚ) < 1 / 10 ^ 12 := by norm_num
      linarith
    · rw [sub_lt_comm, lt_div_iff₀ hpos]
      norm_num
      nlinarith

/-- C36 (point forecast): the forecast is the sum of the observations at that time of day over `N + 1e-12`. At a time of day
without training rows, where every probability is NaN, the forecast is silently zero. -/
theorem C36_point_forecast (rows : List (DRow K T)) (k : K) (j : Fin T) :
    discPredict rows k j = if cell rows k j = [] then 0
      else (cell rows k j).sum / ((cell rows k j).length + 1 / 10 ^ 12) := by
  unfold discPredict
  simp only [C36_probability]
  by_cases h : cell rows k j = []
  · rw [if_pos h]
    simp [h]
  · rw [if_neg h]
    simp only [if_neg h]
    have : (fun v => ((cell rows k j).count v : ℚ) / (((cell rows k j).length : ℚ) + 1 / 10 ^ 12) * v) =
        fun v => (((cell rows k j).count v : ℚ) * v) * (((cell rows k j).length : ℚ) + 1 / 10 ^ 12)⁻¹ := by
      funext v; rw [div_eq_mul_inv]; ring
    rw [this, List.sum_map_mul_right, sum_value_count _ _ (support_spec rows).1 (cell_sub rows k j), ← div_eq_mul_inv]

/-! ### Examples -/

example : (match fitDistr (fun x => .ok (persistPredict 2 x)) 2 [0, 1/2, 1] [1, 2, 4, 7, 11] with
    | .ok d => decide (d = [[1, 2, 3], [3, 5, 7]]) | .error _ => false) = true := by decide +kernel
example : (match fitDistr (fun x => .ok (persistPredict 2 x)) 2 [0, 1/2, 1] [1, 2] with
    | .error .indexError => true | _ => false) = true := by decide +kernel

/-- Period 3: the forecast repeats the current value instead of the next one. -/
example : ∃ t, seasPredict (lastN 3 [10, 20, 30, 10, 20, 30]) 2 [10, 20] = .ok t ∧ t = [[10, 20], [20, 30]] := by
  refine ⟨_, rfl, ?_⟩; decide +kernel
example : Consecutive (fun t => ((t % 3 : Nat) : ℚ)) 3 [0, 1, 2] [0, 1] := by
  refine ⟨by simp, ?_, ?_⟩
  · intro k hk; simp at hk; interval_cases k <;> decide +kernel
  · intro k hk; simp at hk; interval_cases k <;> decide +kernel
example : seasPredict (lastN 1 [10, 20, 30]) 3 [10, 20] = .error .valueError := rfl

/-- Two times of day. -/
def exRows : List (DRow Nat 1) := [⟨0, fun _ => 1⟩, ⟨12, fun _ => 3⟩, ⟨0, fun _ => 2⟩, ⟨0, fun _ => 1⟩]
example : cell exRows 0 0 = [1, 2, 1] ∧ cell exRows 6 0 = [] := by decide +kernel
example : prob exRows 0 0 1 = some (2 / (3 + 1 / 10 ^ 12)) ∧ prob exRows 0 0 3 = some 0 ∧ prob exRows 6 0 1 = none ∧
    discPredict exRows 6 0 = 0 := by decide +kernel

end PyF.Bench
