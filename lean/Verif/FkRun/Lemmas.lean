import Verif.FkRun.Model
import Verif.FkRun.Spec
import Mathlib.Tactic.Ring
import Mathlib.Tactic.Linarith
import Mathlib.Tactic.FieldSimp
import Mathlib.Algebra.Order.BigOperators.Group.Finset

namespace PyF.FkRun
open PyF

variable {k : ℕ}

/-- Feeding the filter its own weights changes no weight. -/
theorem filter_self (c : Cfg k) (s : St k) : (filter c s s.x).x = s.x := by
  unfold filter
  cases hQ : s.Q <;> cases hR : s.R <;> simp only
  cases hx : s.x
  · rfl
  · simp

theorem filter_QR (c : Cfg k) (s : St k) (y : Option (Vec k)) : (filter c s y).Q = s.Q ∧ (filter c s y).R = s.R := by
  unfold filter
  cases hQ : s.Q <;> cases hR : s.R <;> simp [hQ, hR]

theorem filter_none (c : Cfg k) (s : St k) (y : Option (Vec k)) (h : s.x = none) : (filter c s y).x = none := by
  unfold filter
  cases hQ : s.Q <;> cases hR : s.R <;> simp [h]

theorem filter_frozen (c : Cfg k) (s : St k) (y : Option (Vec k)) (h : s.Q = none) : filter c s y = s := by
  unfold filter
  rw [h]

theorem loop_append (c : Cfg k) (d : Data k) (ret : Bool) (a b : List ℕ) (w : Work k) :
    loop c d ret w (a ++ b) = match loop c d ret w a with | .error e => .error e | .ok w' => loop c d ret w' b := by
  induction a generalizing w with
  | nil => rfl
  | cons i is ih =>
    simp only [List.cons_append, loop]
    cases h : step c d ret w i with
    | error e => rfl
    | ok w' => exact ih w'

/-- A step with history succeeds. -/
theorem step_ok (c : Cfg k) (d : Data k) (w : Work k) (i : ℕ) : ∃ w', step c d true w i = .ok w' ∧
    w'.hist = w.hist ++ [coeffsT c d w.s i] ∧
    w'.rows = w.rows ++ [forecast d i (filter c w.s (coeffsT c d w.s i)).x (coeffsT c d w.s i)] ∧
    w'.s.x = (filter c w.s (coeffsT c d w.s i)).x ∧
    (¬ (i % c.m = 0 ∧ c.m ≤ i) → w'.s = filter c w.s (coeffsT c d w.s i)) ∧
    ((i % c.m = 0 ∧ c.m ≤ i) → w'.s.Q = corrcoef (w.hist ++ [coeffsT c d w.s i])) := by
  unfold step
  simp only [if_true]
  by_cases h : i % c.m = 0 ∧ c.m ≤ i
  · rw [if_pos h, if_neg (by simp)]
    exact ⟨_, rfl, rfl, rfl, rfl, fun hc => absurd h hc, fun _ => rfl⟩
  · rw [if_neg h]
    exact ⟨_, rfl, rfl, rfl, rfl, fun _ => rfl, fun hc => absurd hc h⟩

/-- The loop with history succeeds and appends one row per index. -/
theorem loop_ok (c : Cfg k) (d : Data k) (is : List ℕ) (w : Work k) : ∃ w' l, loop c d true w is = .ok w' ∧
    w'.rows = w.rows ++ l ∧ l.length = is.length := by
  induction is generalizing w with
  | nil => exact ⟨w, [], rfl, by simp, rfl⟩
  | cons i is ih =>
    obtain ⟨w1, h1, -, hr, -⟩ := step_ok c d w i
    obtain ⟨w2, l, h2, hr2, hl⟩ := ih w1
    refine ⟨w2, forecast d i (filter c w.s (coeffsT c d w.s i)).x (coeffsT c d w.s i) :: l, ?_, ?_, by simp [hl]⟩
    · simp only [loop, h1, h2]
    · rw [hr2, hr]
      simp

/-- Rows before `n_sa`: the weights stay. -/
theorem loop_first (c : Cfg k) (d : Data k) (is : List ℕ) (his : ∀ i ∈ is, i < c.nsa) (w w' : Work k)
    (h : loop c d true w is = .ok w') :
    w'.s.x = w.s.x ∧ w'.rows = w.rows ++ is.map (fun i => forecast d i w.s.x w.s.x) ∧
    w'.hist = w.hist ++ is.map (fun _ => w.s.x) := by
  induction is generalizing w with
  | nil =>
    simp only [loop, Except.ok.injEq] at h
    subst h
    simp
  | cons i is ih =>
    obtain ⟨w1, h1, hh, hr, hx, -⟩ := step_ok c d w i
    have hct : coeffsT c d w.s i = w.s.x := by
      unfold coeffsT
      rw [if_neg (by have := his i (by simp); omega)]
    rw [hct] at hh hr hx
    rw [filter_self] at hr hx
    simp only [loop, h1] at h
    obtain ⟨a, b, e⟩ := ih (fun j hj => his j (by simp [hj])) w1 h
    rw [hx] at a b e
    refine ⟨a, ?_, ?_⟩
    · rw [b, hr]
      simp
    · rw [e, hh]
      simp

/-- NaN weights stay NaN. -/
theorem loop_none (c : Cfg k) (d : Data k) (is : List ℕ) (w w' : Work k) (hw : w.s.x = none)
    (h : loop c d true w is = .ok w') : w'.s.x = none := by
  induction is generalizing w with
  | nil =>
    simp only [loop, Except.ok.injEq] at h
    subst h
    exact hw
  | cons i is ih =>
    obtain ⟨w1, h1, -, -, hx, -⟩ := step_ok c d w i
    simp only [loop, h1] at h
    exact ih w1 (by rw [hx]; exact filter_none _ _ _ hw) h

/-- Without a new estimate of `Q` the filter keeps its matrices. -/
theorem loop_QR (c : Cfg k) (d : Data k) (is : List ℕ) (his : ∀ i ∈ is, i < c.m) (w w' : Work k)
    (h : loop c d true w is = .ok w') : w'.s.Q = w.s.Q ∧ w'.s.R = w.s.R := by
  induction is generalizing w with
  | nil =>
    simp only [loop, Except.ok.injEq] at h
    subst h
    exact ⟨rfl, rfl⟩
  | cons i is ih =>
    obtain ⟨w1, h1, -, -, -, hs, -⟩ := step_ok c d w i
    simp only [loop, h1] at h
    obtain ⟨a, b⟩ := ih (fun j hj => his j (by simp [hj])) w1 h
    have hs' := hs (by have := his i (by simp); omega)
    obtain ⟨e1, e2⟩ := filter_QR c w.s (coeffsT c d w.s i)
    rw [hs'] at a b
    rw [a, b, e1, e2]
    exact ⟨rfl, rfl⟩

theorem forecast_average (d : Data k) (i : ℕ) (x : Option (Vec k)) :
    Spec.average x (fun j s => d.p j i s) (forecast d i x x) := by
  unfold Spec.average forecast
  cases x with
  | none => simp
  | some v =>
    simp only
    unfold Fast.weights
    by_cases h : ∑ j, |v j| = 0
    · left
      rw [if_pos h]
      exact ⟨h, rfl⟩
    · right
      rw [if_neg h]
      refine ⟨h, _, rfl, ?_⟩
      intro s
      unfold Fast.combine
      rw [Finset.sum_mul]
      apply Finset.sum_congr rfl
      intro j _
      simp only
      rw [abs_div, abs_of_nonneg (Finset.sum_nonneg (fun l _ => abs_nonneg (v l)) : (0 : ℝ) ≤ ∑ l, |v l|)]
      field_simp

theorem forecast_keep (d : Data k) (i : ℕ) (x : Vec k) (y : Option (Vec k)) :
    forecast d i (some x) y = forecast d i (some x) (some x) := rfl

theorem sum_replicate_zero (n : ℕ) : (List.replicate n (0 : ℝ)).sum = 0 := by simp

/-- Equal rows have no correlation. -/
theorem corr_const (hk : 1 ≤ k) (n : ℕ) (hn : 1 ≤ n) (x : Option (Vec k)) : corrcoef (List.replicate n x) = none := by
  unfold corrcoef
  cases x with
  | none =>
    obtain ⟨m, rfl⟩ : ∃ m, n = m + 1 := ⟨n - 1, by omega⟩
    rw [List.replicate_succ, List.mapM_cons]
    rfl
  | some v =>
    have : (List.replicate n (some v)).mapM id = some (List.replicate n v) := by
      induction n with
      | zero => omega
      | succ m ih =>
        rw [List.replicate_succ, List.mapM_cons]
        rcases Nat.eq_zero_or_pos m with h | h
        · subst h
          rfl
        · rw [ih h]
          rfl
    rw [this]
    simp only
    rw [if_pos]
    refine ⟨⟨0, hk⟩, ?_⟩
    have hn' : (n : ℝ) ≠ 0 := by exact_mod_cast (by omega : n ≠ 0)
    have hm : colMean (List.replicate n v) ⟨0, hk⟩ = v ⟨0, hk⟩ := by
      unfold colMean
      simp only [List.map_replicate, List.sum_replicate, List.length_replicate, nsmul_eq_mul]
      field_simp
    unfold colCov
    rw [hm]
    simp

/-- With `Q` not a number nothing changes as long as it is not estimated anew. -/
theorem loop_frozen (c : Cfg k) (d : Data k) (is : List ℕ) (his : ∀ i ∈ is, ¬ (i % c.m = 0 ∧ c.m ≤ i)) (x : Vec k) (w w' : Work k)
    (hx : w.s.x = some x) (hQ : w.s.Q = none) (h : loop c d true w is = .ok w') :
    w'.s = w.s ∧ w'.rows = w.rows ++ is.map (fun i => forecast d i (some x) (some x)) := by
  induction is generalizing w with
  | nil =>
    simp only [loop, Except.ok.injEq] at h
    subst h
    simp
  | cons i is ih =>
    obtain ⟨w1, h1, hh, hr, hx1, hs, -⟩ := step_ok c d w i
    simp only [loop, h1] at h
    have hs' := hs (his i (by simp))
    rw [filter_frozen c w.s _ hQ] at hr hs'
    obtain ⟨a, b⟩ := ih (fun j hj => his j (by simp [hj])) w1 (by rw [hs', hx]) (by rw [hs', hQ]) h
    refine ⟨by rw [a, hs'], ?_⟩
    rw [b, hr, hx, forecast_keep]
    simp

/-- After more than `m` rows with equal weights the filter is switched off. -/
theorem loop_switch (hk : 1 ≤ k) (c : Cfg k) (hm : 1 ≤ c.m) (d : Data k) (n : ℕ) (hn : n ≤ c.nsa) (s : St k) (w' : Work k)
    (h : loop c d true { s := s, hist := [], rows := [] } (List.range n) = .ok w') (hlt : c.m < n) : w'.s.Q = none := by
  induction n generalizing w' with
  | zero => omega
  | succ n ih =>
    rw [List.range_succ, loop_append] at h
    obtain ⟨w1, l, h1, -, -⟩ := loop_ok c d (List.range n) { s := s, hist := [], rows := [] }
    rw [h1] at h
    simp only at h
    obtain ⟨hx1, -, hh1⟩ := loop_first c d (List.range n) (fun i hi => by have := List.mem_range.1 hi; omega) _ _ h1
    obtain ⟨w2, h2, hh, -, -, hs, hq⟩ := step_ok c d w1 n
    simp only [loop, h2, Except.ok.injEq] at h
    subst h
    have hct : coeffsT c d w1.s n = s.x := by
      unfold coeffsT
      rw [if_neg (by omega), hx1]
    by_cases hcase : n % c.m = 0 ∧ c.m ≤ n
    · rw [hq hcase, hct, hh1]
      have : ([] ++ (List.range n).map (fun _ => s.x)) ++ [s.x] = List.replicate (n + 1) s.x := by
        rw [List.nil_append, List.replicate_succ', List.map_const']
        simp
      rw [this]
      exact corr_const hk (n + 1) (by omega) s.x
    · rw [hs hcase]
      have hmn : c.m < n := by
        rcases Nat.lt_or_ge c.m n with h' | h'
        · exact h'
        · exfalso
          apply hcase
          have : n = c.m := by omega
          rw [this]
          simp
      rw [filter_frozen c w1.s _ (ih (by omega) w1 h1 hmn)]
      exact ih (by omega) w1 h1 hmn

end PyF.FkRun
