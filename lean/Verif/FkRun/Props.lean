import Verif.FkRun.Lemmas
import Verif.Fast.Props

/-! Properties C204-C208. -/

namespace PyF.FkRun
open PyF

variable {k : ℕ} {E F : Type}

/-- State of the experts whose forecasts a call combines: fitted on the frame first when fitting. -/
def expertsOf (ex : Experts E F k) (o : Obj E k) (f : F) (fit : Bool) : E := if fit then ex.fit o.experts f else o.experts

theorem call_eq (c : Cfg k) (ex : Experts E F k) (o : Obj E k) (f : F) (fit : Bool) (hl : 0 < ex.len f) :
    ∃ w, loop c { len := ex.len f, obs := ex.obs f, p := ex.predict (expertsOf ex o f fit) f } true
      { s := o.states, hist := [], rows := [] } (List.range (ex.len f)) = .ok w ∧ w.rows.length = ex.len f ∧
      call c ex o f fit = .ok ({ experts := expertsOf ex o f fit, states := if fit then w.s else o.states }, w.rows) := by
  obtain ⟨w, l, h, hr, hlen⟩ := loop_ok c { len := ex.len f, obs := ex.obs f, p := ex.predict (expertsOf ex o f fit) f }
    (List.range (ex.len f)) { s := o.states, hist := [], rows := [] }
  refine ⟨w, h, by rw [hr]; simp [hlen], ?_⟩
  unfold call run rowsOf
  simp only
  rw [show (if fit = true then ex.fit o.experts f else o.experts) = expertsOf ex o f fit from rfl, h]
  simp only
  rw [if_neg (by omega)]

theorem split_range (n a : ℕ) (h : a ≤ n) : List.range n = List.range a ++ List.range' a (n - a) := by
  rw [List.range_eq_range', List.range_eq_range']
  have e : n = a + (n - a) := by omega
  conv_lhs => rw [e]
  rw [← List.range'_append_1 (s := 0) (m := a) (n := n - a)]
  simp

theorem call_first (c : Cfg k) (ex : Experts E F k) (o : Obj E k) (f : F) (fit : Bool) (hl : 0 < ex.len f) :
    ∃ o' rows, call c ex o f fit = .ok (o', rows) ∧ rows.length = ex.len f ∧
      ∀ i, i < ex.len f → i < c.nsa →
        rows[i]? = some (forecast { len := ex.len f, obs := ex.obs f, p := ex.predict (expertsOf ex o f fit) f } i o.states.x o.states.x) := by
  obtain ⟨w, h, hlen, hc⟩ := call_eq c ex o f fit hl
  refine ⟨_, _, hc, hlen, ?_⟩
  intro i hi hs
  rw [split_range (ex.len f) (min c.nsa (ex.len f)) (by omega), loop_append] at h
  obtain ⟨w1, l, h1, hr1, hl1⟩ := loop_ok c { len := ex.len f, obs := ex.obs f, p := ex.predict (expertsOf ex o f fit) f }
    (List.range (min c.nsa (ex.len f))) { s := o.states, hist := [], rows := [] }
  rw [h1] at h
  simp only at h
  obtain ⟨w2, l2, h2, hr2, -⟩ := loop_ok c { len := ex.len f, obs := ex.obs f, p := ex.predict (expertsOf ex o f fit) f }
    (List.range' (min c.nsa (ex.len f)) (ex.len f - min c.nsa (ex.len f))) w1
  rw [h2] at h
  simp only [Except.ok.injEq] at h
  subst h
  obtain ⟨-, hrows, -⟩ := loop_first c _ _ (fun j hj => by have := List.mem_range.1 hj; omega) _ _ h1
  rw [hr2, hrows]
  simp only [List.nil_append]
  rw [List.getElem?_append_left (by simp; omega)]
  rw [List.getElem?_map, List.getElem?_range (by omega)]
  rfl

/-- **C204.** The first `n_sa` rows of every call are combined with the weights stored by the last fit: nothing observed in
the call changes them. -/
theorem C204_first_rows (c : Cfg k) (ex : Experts E F k) (o : Obj E k) (f : F) (fit : Bool) (hl : 0 < ex.len f) :
    ∃ o' rows, call c ex o f fit = .ok (o', rows) ∧ rows.length = ex.len f ∧
      ∀ i, i < ex.len f → i < c.nsa → ∃ r, rows[i]? = some r ∧
        Spec.average o.states.x (fun j s => ex.predict (expertsOf ex o f fit) f j i s) r := by
  obtain ⟨o', rows, h, hlen, hr⟩ := call_first c ex o f fit hl
  exact ⟨o', rows, h, hlen, fun i hi hs => ⟨_, hr i hi hs, forecast_average _ i o.states.x⟩⟩

theorem err_zero (nsa : ℕ) (p : ℕ → ℕ → ℝ) (y : ℝ) (i : ℕ) (h : ∀ sa < nsa, p (i - sa) sa = y) : err nsa p y i = 0 := by
  unfold err
  rw [Finset.sum_eq_zero (fun sa _ => by rw [h sa sa.2]; simp)]
  simp

/-- **C205.** If on some row, from the `n_sa`-th on and before the filter's matrices are estimated anew, all experts were
exactly right, the forecast of that row is NaN, and after a fit the stored weights are NaN. -/
theorem C205_all_exact (c : Cfg k) (ex : Experts E F k) (o : Obj E k) (f : F) (fit : Bool) (i : ℕ) (hi : i < ex.len f)
    (hn : c.nsa ≤ i) (hm : i ≤ c.m) (hQ : o.states.Q.isSome) (hR : o.states.R.isSome)
    (he : Spec.AllExact c.nsa (ex.predict (expertsOf ex o f fit) f) (ex.obs f i) i) :
    ∃ o' rows, call c ex o f fit = .ok (o', rows) ∧ rows[i]? = some none ∧ (fit = true → o'.states.x = none) := by
  obtain ⟨w, h, hlen, hc⟩ := call_eq c ex o f fit (by omega)
  refine ⟨_, _, hc, ?_⟩
  set d : Data k := { len := ex.len f, obs := ex.obs f, p := ex.predict (expertsOf ex o f fit) f } with hd
  rw [split_range (ex.len f) i (by omega), show ex.len f - i = (ex.len f - i - 1) + 1 by omega, List.range'_succ, loop_append] at h
  obtain ⟨w1, l, h1, hr1, hl1⟩ := loop_ok c d (List.range i) { s := o.states, hist := [], rows := [] }
  rw [h1] at h
  simp only at h
  obtain ⟨q1, q2⟩ := loop_QR c d (List.range i) (fun j hj => by have := List.mem_range.1 hj; omega) _ _ h1
  obtain ⟨w2, h2, hh2, hr2, hx2, -, -⟩ := step_ok c d w1 i
  have hct : coeffsT c d w1.s i = none := by
    unfold coeffsT softmax
    rw [if_pos hn]
    simp only
    rw [if_pos]
    rw [Finset.sum_eq_zero (fun j _ => err_zero c.nsa (d.p j) (d.obs i) i (he j))]
    simp
  have hx : (filter c w1.s none).x = none := by
    unfold filter
    obtain ⟨Q, hQ'⟩ := Option.isSome_iff_exists.1 hQ
    obtain ⟨R, hR'⟩ := Option.isSome_iff_exists.1 hR
    rw [q1, q2]
    simp only [hQ', hR']
    cases w1.s.x <;> rfl
  rw [hct, hx] at hr2
  rw [hct, hx] at hx2
  simp only [loop, h2] at h
  obtain ⟨w3, l3, h3, hr3, -⟩ := loop_ok c d (List.range' (i + 1) (ex.len f - i - 1)) w2
  have hn3 := loop_none c d _ _ _ hx2 h3
  rw [h3] at h
  simp only [Except.ok.injEq] at h
  subst h
  constructor
  · rw [hr3, hr2, hr1]
    have hli : l.length = i := by rw [hl1]; simp
    simp only [List.nil_append]
    rw [List.append_assoc, List.getElem?_append_right (by omega), hli, Nat.sub_self]
    rfl
  · intro hf
    simp only [hf, if_true]
    exact hn3

/-- **C205.** NaN weights are never repaired: in every later sequence of fits and predictions the first `n_sa` rows of every
call are NaN, and the weights stored at the end are NaN. -/
theorem C205_for_ever (c : Cfg k) (ex : Experts E F k) (o : Obj E k) (fs : List (F × Bool)) (hl : ∀ p ∈ fs, 0 < ex.len p.1)
    (hx : o.states.x = none) :
    ∃ o' rs, calls c ex o fs = .ok (o', rs) ∧ o'.states.x = none ∧ rs.length = fs.length ∧
      ∀ rows ∈ rs, ∀ i, i < rows.length → i < c.nsa → rows[i]? = some none := by
  induction fs generalizing o with
  | nil => exact ⟨o, [], rfl, hx, rfl, by simp⟩
  | cons p ps ih =>
    obtain ⟨f, b⟩ := p
    have hlf : 0 < ex.len f := hl (f, b) (by simp)
    obtain ⟨w, h, hlen, hc⟩ := call_eq c ex o f b hlf
    obtain ⟨o1, rows, hc', hlen', hr⟩ := call_first c ex o f b hlf
    have hx1 : o1.states.x = none := by
      rw [hc] at hc'
      simp only [Except.ok.injEq, Prod.mk.injEq] at hc'
      rw [← hc'.1]
      simp only
      split
      · exact loop_none c _ _ _ _ hx h
      · exact hx
    obtain ⟨o2, rs, h2, hx2, hl2, hrs⟩ := ih o1 (fun q hq => hl q (by simp [hq])) hx1
    refine ⟨o2, rows :: rs, ?_, hx2, by simp [hl2], ?_⟩
    · simp only [calls, hc', h2]
    · intro r hr' i hi hs
      rcases List.mem_cons.1 hr' with h' | h'
      · subst h'
        rw [hr i (by omega) hs, hx]
        rfl
      · exact hrs r h' i hi hs

theorem call_frozen (hk : 1 ≤ k) (c : Cfg k) (hm : 1 ≤ c.m) (hn : c.m < c.nsa) (ex : Experts E F k) (o : Obj E k) (f : F) (fit : Bool)
    (hl : 0 < ex.len f) (hshort : ∀ t, t * c.m + 1 < ex.len f → t * c.m < c.nsa) (x : Vec k) (hx : o.states.x = some x) :
    ∃ o' rows, call c ex o f fit = .ok (o', rows) ∧ rows.length = ex.len f ∧ o'.states.x = some x ∧
      o'.experts = expertsOf ex o f fit ∧
      ∀ i, i < ex.len f →
        rows[i]? = some (forecast { len := ex.len f, obs := ex.obs f, p := ex.predict (expertsOf ex o f fit) f } i (some x) (some x)) := by
  obtain ⟨w, h, hlen, hc⟩ := call_eq c ex o f fit hl
  set d : Data k := { len := ex.len f, obs := ex.obs f, p := ex.predict (expertsOf ex o f fit) f } with hd
  have main : w.s.x = some x ∧ w.rows = (List.range (ex.len f)).map (fun i => forecast d i (some x) (some x)) := by
    by_cases hcase : ex.len f ≤ c.nsa
    · obtain ⟨a, b, -⟩ := loop_first c d (List.range (ex.len f)) (fun j hj => by have := List.mem_range.1 hj; omega) _ _ h
      simp only [List.nil_append, hx] at a b
      exact ⟨a, b⟩
    · rw [split_range (ex.len f) c.nsa (by omega), show ex.len f - c.nsa = (ex.len f - c.nsa - 1) + 1 by omega,
        List.range'_1_concat, ← List.append_assoc, loop_append, loop_append] at h
      obtain ⟨w1, l, h1, -, -⟩ := loop_ok c d (List.range c.nsa) { s := o.states, hist := [], rows := [] }
      obtain ⟨hx1, hr1, -⟩ := loop_first c d (List.range c.nsa) (fun j hj => List.mem_range.1 hj) _ _ h1
      have hQ1 := loop_switch hk c hm d c.nsa (le_refl _) o.states w1 h1 hn
      obtain ⟨w2, l2, h2, -, -⟩ := loop_ok c d (List.range' c.nsa (ex.len f - c.nsa - 1)) w1
      simp only [hx] at hx1
      obtain ⟨hs2, hr2⟩ := loop_frozen c d (List.range' c.nsa (ex.len f - c.nsa - 1)) (by
        intro i hi
        rw [List.mem_range'_1] at hi
        rintro ⟨hd', -⟩
        have e : i = i / c.m * c.m := (Nat.div_mul_cancel (Nat.dvd_of_mod_eq_zero hd')).symm
        have := hshort (i / c.m) (by rw [← e]; omega)
        rw [← e] at this
        omega) x w1 w2 hx1 hQ1 h2
      rw [h1] at h
      simp only at h
      rw [h2] at h
      simp only [loop] at h
      obtain ⟨w3, h3, -, hr3, hx3, -⟩ := step_ok c d w2 (c.nsa + (ex.len f - c.nsa - 1))
      rw [h3] at h
      simp only [Except.ok.injEq] at h
      subst h
      have hfr := filter_frozen c w2.s (coeffsT c d w2.s (c.nsa + (ex.len f - c.nsa - 1))) (by rw [hs2, hQ1])
      rw [hfr, hs2, hx1] at hx3
      rw [hfr, hs2, hx1, forecast_keep] at hr3
      refine ⟨hx3, ?_⟩
      rw [hr3, hr2, hr1]
      simp only [List.nil_append, hx]
      rw [split_range (ex.len f) c.nsa (by omega), show ex.len f - c.nsa = (ex.len f - c.nsa - 1) + 1 by omega,
        List.range'_1_concat]
      simp
  refine ⟨_, _, hc, hlen, ?_, rfl, ?_⟩
  · simp only
    split
    · exact main.1
    · exact hx
  · intro i hi
    rw [main.2, List.getElem?_map, List.getElem?_range hi]
    rfl

/-- Forecasts of a sequence of calls that never adapt: the plain mean of the experts, fitted in the same order. -/
def PlainMeans (ex : Experts E F k) : E → List (F × Bool) → List (List (Option (ℕ → ℝ))) → Prop
  | _, [], rs => rs = []
  | e, (f, b) :: fs, rs =>
    ∃ r rs', rs = r :: rs' ∧ r.length = ex.len f ∧
      (∀ i, i < ex.len f → ∃ v, r[i]? = some v ∧ Spec.IsMean (fun j s => ex.predict (if b then ex.fit e f else e) f j i s) v) ∧
      PlainMeans ex (if b then ex.fit e f else e) fs rs'

theorem calls_plain (hk : 1 ≤ k) (c : Cfg k) (hm : 1 ≤ c.m) (hn : c.m < c.nsa) (ex : Experts E F k) (o : Obj E k)
    (hx : o.states.x = some (fun _ => 1 / (k : ℝ))) (fs : List (F × Bool))
    (hl : ∀ p ∈ fs, 0 < ex.len p.1 ∧ ∀ t, t * c.m + 1 < ex.len p.1 → t * c.m < c.nsa) :
    ∃ o' rs, calls c ex o fs = .ok (o', rs) ∧ PlainMeans ex o.experts fs rs := by
  induction fs generalizing o with
  | nil => exact ⟨o, [], rfl, rfl⟩
  | cons p ps ih =>
    obtain ⟨f, b⟩ := p
    obtain ⟨hl1, hl2⟩ := hl (f, b) (by simp)
    obtain ⟨o1, rows, hc, hlen, hx1, he1, hr⟩ := call_frozen hk c hm hn ex o f b hl1 hl2 _ hx
    obtain ⟨o2, rs, h2, hp⟩ := ih o1 hx1 (fun q hq => hl q (by simp [hq]))
    refine ⟨o2, rows :: rs, ?_, rows, rs, rfl, hlen, ?_, ?_⟩
    · simp only [calls, hc, h2]
    · intro i hi
      refine ⟨_, hr i hi, ?_⟩
      have ha := forecast_average { len := ex.len f, obs := ex.obs f, p := ex.predict (expertsOf ex o f b) f } i
        (some (fun _ => 1 / (k : ℝ)))
      have hk' : (0 : ℝ) < k := by exact_mod_cast hk
      have hsum : ∑ _j : Fin k, |1 / (k : ℝ)| = 1 := by
        rw [Finset.sum_const, Finset.card_univ, Fintype.card_fin, nsmul_eq_mul, abs_of_pos (by positivity)]
        field_simp
      rcases ha with ⟨h0, -⟩ | ⟨-, g, hg, hs⟩
      · rw [hsum] at h0
        norm_num at h0
      · refine ⟨g, hg, ?_⟩
        intro s
        have := hs s
        rw [hsum, mul_one, ← Finset.mul_sum, abs_of_pos (by positivity)] at this
        rw [this]
        field_simp
        rfl
    · rw [he1] at hp
      exact hp

/-- **C206.** With a horizon longer than `m` the combination does not adapt on frames that end at the latest one row after
the first multiple of `m` that is at least `n_sa`: from a new object, every forecast of every fit and prediction is the plain
mean of the experts. -/
theorem C206_never_adapts (hk : 1 ≤ k) (c : Cfg k) (hm : 1 ≤ c.m) (hn : c.m < c.nsa) (ex : Experts E F k) (e : E)
    (fs : List (F × Bool)) (hl : ∀ p ∈ fs, 0 < ex.len p.1 ∧ ∀ t, t * c.m + 1 < ex.len p.1 → t * c.m < c.nsa) :
    ∃ o' rs, calls c ex { experts := e, states := fresh c } fs = .ok (o', rs) ∧ PlainMeans ex e fs rs :=
  calls_plain hk c hm hn ex { experts := e, states := fresh c } rfl fs hl

/-- **C207.** The forecasts `FK_multi.fit` combines and judges are not those of the past: the experts have already been fitted
on the whole frame. For a `Fourier_es` expert the window of row `i` is the end of the frame followed by its first `i + 1`
samples. -/
theorem C207_fitted_first {K : Type} [Field K] (c : Fast.Fcfg K) (st st1 : Fast.Fst K c.d) (y : List K) (R1 : List (List K))
    (hw : st.w.length = c.m) (hm : 1 ≤ c.m) (hlen : c.m ≤ y.length) (h : Fast.fFit c st y = .ok (st1, R1)) (i : ℕ)
    (hi : i < y.length) :
    Fast.recentHistory y st1.w (i + 1 - c.m) i = .ok ((y ++ y.take (i + 1)).drop (y.length + (i + 1) - c.m)) := by
  obtain ⟨y0, ys, rfl⟩ : ∃ y0 ys, y = y0 :: ys := by
    cases y with
    | nil => simp at hlen; omega
    | cons a b => exact ⟨a, b, rfl⟩
  have hwin : st1.w = Fast.lastM c.m (y0 :: ys) := by
    unfold Fast.fFit Fast.fRun at h
    simp only at h
    generalize hx0 : ({ x := Fast.initX c st y0, w := st.w, eps := st.eps, last := st.last } : Fast.Work K c.d) = w0 at h
    rw [show (y0 :: ys).length = ys.length + 1 from rfl, List.range_succ] at h
    have key : ∀ (is : List ℕ) (s s' : Fast.Work K c.d) (rs : List (List K)) (j : ℕ),
        Fast.fLoop c st.w (y0 :: ys) s (is ++ [j]) = .ok (s', rs) →
        Fast.recentHistory (y0 :: ys) st.w (j + 1 - c.m) j = .ok s'.w := by
      intro is
      induction is with
      | nil =>
        intro s s' rs j h
        simp only [List.nil_append, Fast.fLoop] at h
        cases hs : Fast.fStep c st.w (y0 :: ys) s j with
        | error e =>
          rw [hs] at h
          exact absurd h (by simp)
        | ok r =>
          obtain ⟨s1, r1⟩ := r
          rw [hs] at h
          simp only [Except.ok.injEq, Prod.mk.injEq] at h
          rw [← h.1]
          unfold Fast.fStep at hs
          cases hh : Fast.recentHistory (y0 :: ys) st.w (j + 1 - c.m) j with
          | error e =>
            rw [hh] at hs
            exact absurd hs (by simp)
          | ok w =>
            rw [hh] at hs
            simp only at hs
            split at hs
            · exact absurd hs (by simp)
            · simp only [Except.ok.injEq, Prod.mk.injEq] at hs
              rw [← hs.1]
      | cons a as ih =>
        intro s s' rs j h
        simp only [List.cons_append, Fast.fLoop] at h
        cases hs : Fast.fStep c st.w (y0 :: ys) s a with
        | error e =>
          rw [hs] at h
          exact absurd h (by simp)
        | ok r =>
          obtain ⟨s1, r1⟩ := r
          rw [hs] at h
          simp only at h
          cases hl : Fast.fLoop c st.w (y0 :: ys) s1 (as ++ [j]) with
          | error e =>
            rw [hl] at h
            exact absurd h (by simp)
          | ok r2 =>
            obtain ⟨s2, rs2⟩ := r2
            rw [hl] at h
            simp only [Except.ok.injEq, Prod.mk.injEq] at h
            rw [← h.1]
            exact ih s1 s2 rs2 j hl
    cases hl : Fast.fLoop c st.w (y0 :: ys) w0 (List.range ys.length ++ [ys.length]) with
    | error e =>
      rw [hl] at h
      exact absurd h (by simp)
    | ok r =>
      obtain ⟨s', rs⟩ := r
      rw [hl] at h
      simp only [Except.ok.injEq, Prod.mk.injEq] at h
      have := key _ _ _ _ _ hl
      have h42 := Fast.C42_window (y0 :: ys) st.w ys.length (by omega) (by simp)
      rw [hw] at h42
      rw [h42] at this
      simp only [Except.ok.injEq] at this
      rw [← h.1]
      simp only
      rw [← this]
      unfold Fast.lastM
      simp only [List.length_cons] at hlen
      rw [List.drop_append, List.drop_eq_nil_of_le (by simp; omega), List.nil_append]
      simp only [List.length_append, List.length_take, List.length_cons]
      rw [List.take_of_length_le (by simp)]
      congr 1
      omega
  have hwl : st1.w.length = c.m := by
    rw [hwin]
    unfold Fast.lastM
    rw [List.length_drop]
    omega
  have h42 := Fast.C42_window (y0 :: ys) st1.w i (by omega) hi
  rw [hwl] at h42
  rw [h42, hwin, Fast.lastM_append]
  unfold Fast.lastM
  congr 2
  simp only [List.length_append, List.length_take]
  omega

/-- **C208.** Asking `run` not to return the coefficients raises on every frame with more than `m` rows, and only there
(an empty frame always raises). -/
theorem C208_return_coeffs (c : Cfg k) (_hm : 1 ≤ c.m) (ex : Experts E F k) (o : Obj E k) (f : F) (fit : Bool) :
    (∃ r, run c ex o f false fit = .ok r) ↔ 0 < ex.len f ∧ ex.len f ≤ c.m := by
  set d : Data k := { len := ex.len f, obs := ex.obs f, p := ex.predict (expertsOf ex o f fit) f } with hd
  have low : ∀ (is : List ℕ) (w : Work k), w.hist = [] → (∀ i ∈ is, i < c.m) → ∃ w', loop c d false w is = .ok w' ∧ w'.hist = [] := by
    intro is
    induction is with
    | nil => intro w hw _; exact ⟨w, rfl, hw⟩
    | cons i is ih =>
      intro w hw his
      simp only [loop]
      have hi := his i (by simp)
      obtain ⟨w1, h1, hw1⟩ : ∃ w1, step c d false w i = .ok w1 ∧ w1.hist = w.hist := by
        unfold step
        simp only [Bool.false_eq_true, if_false]
        rw [if_neg (by omega)]
        exact ⟨_, rfl, rfl⟩
      rw [h1]
      exact ih _ (by rw [hw1, hw]) (fun j hj => his j (by simp [hj]))
  have hrun : (∃ r, run c ex o f false fit = .ok r) ↔ ∃ w, rowsOf c d false o.states = .ok w := by
    unfold run
    simp only
    rw [show (if fit = true then ex.fit o.experts f else o.experts) = expertsOf ex o f fit from rfl, ← hd]
    cases rowsOf c d false o.states with
    | error e => simp
    | ok w => simp
  rw [hrun]
  unfold rowsOf
  constructor
  · rintro ⟨w, hw⟩
    cases hl : loop c d false { s := o.states, hist := [], rows := [] } (List.range d.len) with
    | error e =>
      rw [hl] at hw
      exact absurd hw (by simp)
    | ok w1 =>
      rw [hl] at hw
      simp only at hw
      have h0 : d.len ≠ 0 := by
        intro h0
        rw [if_pos h0] at hw
        exact absurd hw (by simp)
      refine ⟨Nat.pos_of_ne_zero h0, ?_⟩
      by_contra hc
      have hc' : c.m < d.len := by rw [hd]; simpa using hc
      rw [split_range d.len c.m (by omega), show d.len - c.m = (d.len - c.m - 1) + 1 by omega, List.range'_succ, loop_append] at hl
      obtain ⟨w2, h2, hh2⟩ := low (List.range c.m) { s := o.states, hist := [], rows := [] } rfl (fun i hi => List.mem_range.1 hi)
      rw [h2] at hl
      simp only [loop] at hl
      have : step c d false w2 c.m = .error .valueError := by
        unfold step
        simp only [Bool.false_eq_true, if_false]
        rw [if_pos (by simp), if_pos (by rw [hh2]; rfl)]
      rw [this] at hl
      exact absurd hl (by simp)
  · rintro ⟨h0, h1⟩
    obtain ⟨w', hw, -⟩ := low (List.range d.len) { s := o.states, hist := [], rows := [] } rfl
      (fun i hi => by have := List.mem_range.1 hi; have : d.len = ex.len f := rfl; omega)
    refine ⟨w', ?_⟩
    rw [hw]
    simp only
    rw [if_neg (by have : d.len = ex.len f := rfl; omega)]

end PyF.FkRun
