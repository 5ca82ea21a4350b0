import Verif.HW.Props
import Verif.HW.Multi
import Mathlib.Algebra.Order.Field.Basic
import Mathlib.Algebra.BigOperators.Group.List.Basic
import Mathlib.Algebra.BigOperators.Ring.List

namespace PyF.HW

/-! ### C84: integer target columns -/

theorem trunc_small {x : ℚ} (h1 : -1 < x) (h2 : x < 1) : trunc x = 0 := by
  unfold trunc
  split
  · rename_i h
    have : ⌊x⌋ = 0 := Int.floor_eq_iff.2 (by constructor <;> push_cast <;> linarith)
    rw [this]; rfl
  · rename_i h
    have : ⌈x⌉ = 0 := Int.ceil_eq_iff.2 (by constructor <;> push_cast <;> linarith)
    rw [this]; rfl

/-- Levels of simple exponential smoothing started at `a`. -/
def ses (α : ℚ) : ℚ → List ℚ → List ℚ
  | _, [] => []
  | a, y :: ys => (α * y + (1 - α) * a) :: ses α (α * y + (1 - α) * a) ys

/-- C84: on an integer target column the seasonal arrays are integer arrays. If a new forecaster's first call ends with an
observation 0 and all observations are so small that `2 M gamma < 1`, the seasonal arrays stay zero forever: every row
repeats the level of simple exponential smoothing, whatever seasonal pattern the data have. -/
theorem C84_integer_column_never_learns_seasons (c : Cfg) (p : Pars) (hst : c.store = trunc) (hlo : c.lo = none) (hhi : c.hi = none)
    (h1 : 1 ≤ c.p1) (h2 : 1 ≤ c.p2) (ha0 : 0 ≤ p.alpha) (ha1 : p.alpha ≤ 1) (hg1 : 0 ≤ p.g1) (hg2 : 0 ≤ p.g2) (M : ℚ)
    (hm1 : p.g1 * (2 * M) < 1) (hm2 : p.g2 * (2 * M) < 1) (ys : List ℚ) (hM : ∀ y ∈ ys, -M ≤ y ∧ y ≤ M) (hlast : ys.getLast? = some 0) :
    ∃ st', predict c p (fresh c) (ys.map some) = .ok (st', (ses p.alpha 0 ys).map (fun a => List.replicate c.nsa (some a))) ∧
      st'.s1 = List.replicate c.p1 (some 0) ∧ st'.s2 = List.replicate c.p2 (some 0) := by
  have hne : ys ≠ [] := by rintro rfl; simp at hlast
  have h0M : 0 ≤ M := by
    have := hM 0 (List.mem_of_getLast? hlast)
    exact this.2
  have hl : (ys.map some).getLast (by simpa using hne) = some (0 : ℚ) := by
    rw [List.getLast_map, Option.some.injEq]
    rw [List.getLast?_eq_some_getLast hne] at hlast
    exact Option.some.inj hlast
  rw [predict_eq c p _ _ (by simpa using hne), hl]
  have hs : HW.start c (fresh c) (some 0) =
      { a := some 0, b := some 0, s1 := List.replicate c.p1 (some 0), s2 := List.replicate c.p2 (some 0) } := by
    simp [HW.start, fresh, seasonInit]
  rw [hs]
  have key : ∀ (ys : List ℚ) (a : ℚ), (∀ y ∈ ys, -M ≤ y ∧ y ≤ M) → -M ≤ a → a ≤ M →
      (runLoop c { p with beta := 0 } { a := some a, b := some 0, s1 := List.replicate c.p1 (some 0), s2 := List.replicate c.p2 (some 0) } (ys.map some)).2 =
        (ses p.alpha a ys).map (fun a => List.replicate c.nsa (some a)) ∧
      (runLoop c { p with beta := 0 } { a := some a, b := some 0, s1 := List.replicate c.p1 (some 0), s2 := List.replicate c.p2 (some 0) } (ys.map some)).1.s1 =
        List.replicate c.p1 (some 0) ∧
      (runLoop c { p with beta := 0 } { a := some a, b := some 0, s1 := List.replicate c.p1 (some 0), s2 := List.replicate c.p2 (some 0) } (ys.map some)).1.s2 =
        List.replicate c.p2 (some 0) := by
    intro ys
    induction ys with
    | nil => intro a _ _ _; exact ⟨rfl, rfl, rfl⟩
    | cons y ys ih =>
      intro a hM hla hua
      obtain ⟨hy1, hy2⟩ := hM y (by simp)
      have e1 : -M ≤ p.alpha * y + (1 - p.alpha) * a := by nlinarith
      have e2 : p.alpha * y + (1 - p.alpha) * a ≤ M := by nlinarith
      have hd1 : -(2 * M) ≤ y - (p.alpha * y + (1 - p.alpha) * a) := by linarith
      have hd2 : y - (p.alpha * y + (1 - p.alpha) * a) ≤ 2 * M := by linarith
      have hclip : ∀ x, clip c x = x := by intro x; simp [clip, hlo, hhi]
      have t1 : trunc (p.g1 * (y - (p.alpha * y + (1 - p.alpha) * a))) = 0 := by
        apply trunc_small <;> nlinarith
      have t2 : trunc (p.g2 * (y - (p.alpha * y + (1 - p.alpha) * a))) = 0 := by
        apply trunc_small <;> nlinarith
      have hstep : step c { p with beta := 0 } { a := some a, b := some 0, s1 := List.replicate c.p1 (some 0), s2 := List.replicate c.p2 (some 0) } (some y) =
          { a := some (p.alpha * y + (1 - p.alpha) * a), b := some 0, s1 := List.replicate c.p1 (some 0), s2 := List.replicate c.p2 (some 0) } := by
        obtain ⟨q1, hq1⟩ : ∃ q, c.p1 = q + 1 := ⟨c.p1 - 1, by omega⟩
        obtain ⟨q2, hq2⟩ : ∃ q, c.p2 = q + 1 := ⟨c.p2 - 1, by omega⟩
        simp only [HW.step, hq1, hq2, List.replicate_succ, List.head?_cons, List.tail_cons, Option.join_some, vsub_some, vadd_some,
          cmul_some, Option.map_some, sub_zero, add_zero, mul_zero, zero_mul, hst, hclip, t1, t2]
        rw [← List.replicate_succ', ← List.replicate_succ', List.replicate_succ, List.replicate_succ]
      simp only [List.map_cons, runLoop, hstep, ses]
      obtain ⟨i1, i2, i3⟩ := ih _ (fun z hz => hM z (by simp [hz])) e1 e2
      refine ⟨?_, i2, i3⟩
      rw [i1]
      congr 1
      unfold forecasts
      rw [List.eq_replicate_iff]
      refine ⟨by simp, ?_⟩
      intro v hv
      obtain ⟨i, _, rfl⟩ := List.mem_map.1 hv
      rw [List.getElem?_replicate, List.getElem?_replicate, if_pos (Nat.mod_lt _ (by omega)), if_pos (Nat.mod_lt _ (by omega))]
      simp
  obtain ⟨k1, k2, k3⟩ := key ys 0 hM (by linarith) h0M
  exact ⟨_, by rw [← k1], k2, k3⟩

/-! ### C85: HoltWintersMulti -/

theorem fill_ok {α : Type} (next : Nat → Nat) (nsa : Nat) (ms : List (Nat × (Nat → α))) (h : ∀ m ∈ ms, m.1 ≤ nsa) :
    ∀ k out, ∃ f, fillLoop next nsa k out ms = .ok f := by
  induction ms with
  | nil => intro k out; exact ⟨_, rfl⟩
  | cons m ms ih =>
    intro k out
    unfold fillLoop
    rw [if_neg (by have := h m (by simp); omega)]
    exact ih (fun x hx => h x (by simp [hx])) _ _

theorem fill_predict {α : Type} (nsa : Nat) (ms : List (Nat × (Nat → α))) (h : ∀ m ∈ ms, m.1 ≤ nsa) :
    ∀ (k : Nat) (out : Filled α) (f : Filled α), (∀ m ∈ ms, k < m.1) → ms.Pairwise (fun a b => a.1 < b.1) →
      fillLoop (fun n => n) nsa k out ms = .ok f →
      ∀ c, f c = if c < k then out c else match ms.find? (fun m => decide (c < m.1)) with | some m => some (m.2 c) | none => out c := by
  induction ms with
  | nil =>
    intro k out f _ _ hf c
    simp only [fillLoop, Except.ok.injEq] at hf
    subst hf
    simp
  | cons m ms ih =>
    intro k out f hk hp hf c
    unfold fillLoop at hf
    rw [if_neg (by have := h m (by simp); omega)] at hf
    rw [List.pairwise_cons] at hp
    have := ih (fun x hx => h x (by simp [hx])) _ _ _ (fun x hx => hp.1 x hx) hp.2 hf c
    rw [this]
    have hkm := hk m (by simp)
    by_cases h1 : c < k
    · rw [if_pos (by omega), if_pos h1, if_neg (by omega)]
    · rw [if_neg h1]
      by_cases h2 : c < m.1
      · rw [if_pos h2, if_pos ⟨by omega, h2⟩, List.find?_cons_of_pos (by simpa using h2)]
      · rw [if_neg h2, List.find?_cons_of_neg (by simpa using h2)]
        split
        · rfl
        · rw [if_neg (by omega)]

/-- C85 (forecasts): with increasing submodel horizons not beyond `n_sa`, column `c` of the combined forecast is column `c` of
the first submodel whose horizon exceeds `c`; columns beyond the longest submodel are left at zero. -/
theorem C85_forecast_source {α : Type} (nsa : Nat) (ms : List (Nat × (Nat → α))) (h0 : ∀ m ∈ ms, 0 < m.1) (h : ∀ m ∈ ms, m.1 ≤ nsa)
    (hp : ms.Pairwise (fun a b => a.1 < b.1)) :
    ∃ f, multiPredict nsa ms = .ok f ∧ ∀ c, f c = (ms.find? (fun m => decide (c < m.1))).map (fun m => m.2 c) := by
  obtain ⟨f, hf⟩ := fill_ok (fun n => n) nsa ms h 0 (fun _ => none)
  refine ⟨f, hf, ?_⟩
  intro c
  rw [fill_predict nsa ms h 0 _ f h0 hp hf c, if_neg (by omega)]
  cases ms.find? (fun m => decide (c < m.1)) <;> rfl

theorem fill_table {α : Type} (nq nsa : Nat) (ms : List (Nat × (Nat → α))) (h : ∀ m ∈ ms, m.1 ≤ nsa) :
    ∀ (out : Filled α) (f : Filled α), fillLoop (fun _ => nq) nsa nq out ms = .ok f →
      ∀ c, f c = if c < nq then out c else match ms.reverse.find? (fun m => decide (c < m.1)) with | some m => some (m.2 c) | none => out c := by
  induction ms with
  | nil =>
    intro out f hf c
    simp only [fillLoop, Except.ok.injEq] at hf
    subst hf
    simp
  | cons m ms ih =>
    intro out f hf c
    unfold fillLoop at hf
    rw [if_neg (by have := h m (by simp); omega)] at hf
    rw [ih (fun x hx => h x (by simp [hx])) _ _ hf c]
    by_cases h1 : c < nq
    · rw [if_pos h1, if_pos h1, if_neg (by omega)]
    · rw [if_neg h1, if_neg h1, List.reverse_cons, List.find?_append]
      cases hr : ms.reverse.find? (fun m => decide (c < m.1)) with
      | some x => rfl
      | none =>
        simp only [Option.none_or]
        by_cases h2 : c < m.1
        · rw [if_pos ⟨by omega, h2⟩, List.find?_cons_of_pos (by simpa using h2)]
        · rw [if_neg (by omega), List.find?_cons_of_neg (by simpa using h2)]
          rfl

/-- C85 (error table): with the default submodel horizons `1, …, n_sa` and `nq ≥ 1` quantile levels, forecasts and error table
come from different submodels. Column `c` of the forecast comes from submodel `c`. Row `c` of the error table is that of
submodel 0 for `c = 0`, is left zero for `1 ≤ c < nq` (all quantiles equal the point forecast), and is that of the longest
submodel for `c ≥ nq`. -/
theorem C85_error_table_mismatch {α : Type} (nq nsa : Nat) (hq : 1 ≤ nq) (g : Nat → Nat → α) :
    ∃ f t, multiPredict nsa ((List.range nsa).map (fun (i : Nat) => (i + 1, g i))) = .ok f ∧
      multiTable nq nsa ((List.range nsa).map (fun (i : Nat) => (i + 1, g i))) = .ok t ∧
      ∀ c, c < nsa → f c = some (g c c) ∧
        t c = if c = 0 then some (g 0 0) else if c < nq then none else some (g (nsa - 1) c) := by
  have hle : ∀ m ∈ (List.range nsa).map (fun (i : Nat) => ((i + 1, g i) : Nat × (Nat → α))), m.1 ≤ nsa := by
    intro m hm
    obtain ⟨i, hi, rfl⟩ := List.mem_map.1 hm
    rw [List.mem_range] at hi
    exact hi
  have hpos : ∀ m ∈ (List.range nsa).map (fun (i : Nat) => ((i + 1, g i) : Nat × (Nat → α))), 0 < m.1 := by
    intro m hm
    obtain ⟨i, hi, rfl⟩ := List.mem_map.1 hm
    exact Nat.succ_pos _
  have hpw : ((List.range nsa).map (fun (i : Nat) => ((i + 1, g i) : Nat × (Nat → α)))).Pairwise (fun a b => a.1 < b.1) := by
    rw [List.pairwise_map]
    exact List.pairwise_lt_range.imp (fun h => Nat.succ_lt_succ h)
  obtain ⟨f, hf, hfc⟩ := C85_forecast_source nsa _ hpos hle hpw
  obtain ⟨t, ht⟩ := fill_ok (fun _ => nq) nsa _ hle 0 (fun _ => none)
  refine ⟨f, t, hf, ht, ?_⟩
  intro c hc
  constructor
  · rw [hfc c, List.find?_map]
    have : (List.range nsa).find? ((fun (m : Nat × (Nat → α)) => decide (c < m.1)) ∘ fun (i : Nat) => (i + 1, g i)) = some c := by
      rw [List.find?_range_eq_some]
      simp only [Function.comp, decide_eq_true_eq]
      exact ⟨by omega, by simpa using hc, by intro j hj; simp; omega⟩
    rw [this]
    rfl
  · obtain ⟨n, rfl⟩ : ∃ n, nsa = n + 1 := ⟨nsa - 1, by omega⟩
    rw [List.range_succ_eq_map, List.map_cons] at ht hle
    unfold fillLoop at ht
    rw [if_neg (by simp)] at ht
    rw [fill_table nq (n + 1) _ (fun x hx => hle x (List.mem_cons_of_mem _ hx)) _ _ ht c]
    simp only [Nat.zero_add, Nat.zero_le, true_and, Nat.lt_one_iff]
    by_cases h0 : c = 0
    · subst h0
      rw [if_pos (by omega)]
      rfl
    · simp only [if_neg h0]
      by_cases h1 : c < nq
      · rw [if_pos h1, if_pos h1]
      · rw [if_neg h1, if_neg h1]
        cases n with
        | zero => omega
        | succ n =>
          rw [List.range_succ, List.map_append, List.map_append, List.reverse_append]
          simp only [List.map_cons, List.map_nil, List.reverse_cons, List.reverse_nil, List.nil_append, List.cons_append]
          rw [List.find?_cons_of_pos (by simp; omega)]
          rfl

/-! ### C86: the error table of a frame with the target only -/

/-- C86: with the target as only column, `fit` tabulates the quantiles of residuals *after* a linear correction that
`predict` does not apply in this case. The tabulated errors are always smaller in mean square than those of the forecasts
actually served, by exactly the explained part; they agree only if the residuals are uncorrelated with the target. -/
theorem C86_table_understates_errors (l : List (ℚ × ℚ)) :
    ((tabulated l).map (fun e => e * e)).sum + (l.map (fun p => p.1 * p.1)).sum⁻¹ * (l.map (fun p => p.1 * p.2)).sum ^ 2 =
        (l.map (fun p => p.2 * p.2)).sum ∧
      (tabulated l = l.map (fun p => p.2) ↔ (l.map (fun p => p.1 * p.2)).sum = 0) := by
  have hsq : ∀ m : List (ℚ × ℚ), 0 ≤ (m.map (fun p => p.1 * p.1)).sum ∧
      ((m.map (fun p => p.1 * p.1)).sum = 0 → ∀ p ∈ m, p.1 = 0) := by
    intro m
    induction m with
    | nil => simp
    | cons p m ih =>
      simp only [List.map_cons, List.sum_cons, List.mem_cons, forall_eq_or_imp]
      have := mul_self_nonneg p.1
      refine ⟨by linarith [ih.1], ?_⟩
      intro h
      have h1 : p.1 * p.1 = 0 := by linarith [ih.1]
      exact ⟨mul_self_eq_zero.1 h1, ih.2 (by linarith [ih.1])⟩
  have hzero : (l.map (fun p => p.1 * p.1)).sum = 0 → (l.map (fun p => p.1 * p.2)).sum = 0 := by
    intro h
    have := (hsq l).2 h
    apply List.sum_eq_zero
    intro x hx
    obtain ⟨p, hp, rfl⟩ := List.mem_map.1 hx
    rw [this p hp, zero_mul]
  have hexp : ∀ (b : ℚ) (m : List (ℚ × ℚ)), ((m.map (fun p => p.2 - p.1 * b)).map (fun e => e * e)).sum =
      (m.map (fun p => p.2 * p.2)).sum - 2 * b * (m.map (fun p => p.1 * p.2)).sum + b * b * (m.map (fun p => p.1 * p.1)).sum := by
    intro b m
    induction m with
    | nil => simp
    | cons p m ih =>
      simp only [List.map_cons, List.sum_cons, ih]
      ring
  constructor
  · unfold tabulated
    rw [hexp (slope l) l]
    unfold slope
    by_cases h : (l.map (fun p => p.1 * p.1)).sum = 0
    · rw [hzero h, h]; simp
    · field_simp
      ring
  · unfold tabulated
    constructor
    · intro h
      have h1 : ∀ p ∈ l, p.1 * slope l = 0 := by
        intro p hp
        have := (List.map_inj_left.1 h) p hp
        linarith
      by_cases h2 : (l.map (fun p => p.1 * p.1)).sum = 0
      · exact hzero h2
      · have h3 : slope l = 0 := by
          by_contra hs
          apply h2
          apply List.sum_eq_zero
          intro x hx
          obtain ⟨p, hp, rfl⟩ := List.mem_map.1 hx
          have := (mul_eq_zero.1 (h1 p hp)).resolve_right hs
          rw [this, zero_mul]
        unfold slope at h3
        exact (mul_eq_zero.1 h3).resolve_left (inv_ne_zero h2)
    · intro h
      apply List.map_congr_left
      intro p _
      unfold slope
      rw [h]
      ring

/-- C86 (alignment): the residual of row `t` and step `j` compares the forecast made at `t` with the target it is for: on a
noiseless signal described by the starting states all residuals vanish. -/
theorem C86_residuals_aligned {c : Cfg} (s : Signal c) (p : Pars) (h1 : 1 ≤ c.p1) (h2 : 1 ≤ c.p2) (hst : c.store = id)
    (hlo : c.lo = none) (hhi : c.hi = none) (st : St) (t n : Nat) (h : Agree s st t) (j : Nat) (hj : j < c.nsa) :
    ∃ st' R, run c p st ((List.range (n + 1)).map (fun (k : Nat) => some (s.at (t + 1 + k)))) = .ok (st', R) ∧
      ∀ q ∈ pairs c.nsa ((List.range (n + 1)).map (fun (k : Nat) => s.at (t + 1 + k))) R j, q.2 = 0 := by
  obtain ⟨st', hr, _⟩ := C38_exact_on_seasonal_signal s p h1 h2 hst (by simp [hlo, hhi]) (by simp [hlo, hhi]) st t n h
  refine ⟨st', _, hr, ?_⟩
  intro q hq
  unfold pairs at hq
  rw [List.length_map, List.length_range] at hq
  obtain ⟨i, hi, rfl⟩ := List.mem_map.1 hq
  rw [List.mem_range] at hi
  simp only [List.getD_eq_getElem?_getD, List.getElem?_map]
  rw [List.getElem?_range (by omega), List.getElem?_range (show i < n + 1 by omega)]
  simp only [Option.map_some, Option.getD_some, List.getElem?_map]
  rw [List.getElem?_range hj]
  simp only [Option.map_some, Option.getD_some]
  rw [show t + 1 + (i + 1 + j) = t + 1 + i + 1 + j by omega, sub_self]

/-! ### C87: fit continues from the previous states -/

theorem reinit_eq (c : Cfg) (p : Pars) (y : List V) (hy : ∀ v ∈ y, v.isSome) (hne : y.drop (y.length - max c.p1 c.p2) ≠ []) :
    ∀ (n : Nat) (st : St), Live c st →
      reinit c p st y n = .ok (runLoop c p st (List.replicate n (y.drop (y.length - max c.p1 c.p2))).flatten).1 := by
  intro n
  induction n with
  | zero => intro st _; rfl
  | succ n ih =>
    intro st h
    unfold reinit run
    rw [List.getLast?_eq_some_getLast hne]
    simp only
    rw [h.start, ih _ (h.run p _ (fun v hv => hy v (List.mem_of_mem_drop hv))), List.replicate_succ, List.flatten_cons, runLoop_append]

/-- C87: fitting an object that already has states does not start over. The states after `fit` are those of continuing the
old run over the training data and then twenty times over its last `max(periods)` samples. -/
theorem C87_refit_continues (c : Cfg) (p : Pars) (st : St) (h : Live c st) (y : List V) (hy : ∀ v ∈ y, v.isSome) (hne : y ≠ []) :
    fitState c p st y = .ok (runLoop c p st (y ++ (List.replicate 20 (y.drop (y.length - max c.p1 c.p2))).flatten)).1 := by
  have hd : y.drop (y.length - max c.p1 c.p2) ≠ [] := by
    intro e
    have := congrArg List.length e
    rw [List.length_drop, List.length_nil] at this
    have h1 := h.pos1
    have h2 := le_max_left c.p1 c.p2
    have h3 := List.length_pos_of_ne_nil hne
    omega
  unfold fitState run
  rw [List.getLast?_eq_some_getLast hne]
  simp only
  rw [h.start, reinit_eq c p y hy hd _ _ (h.run p y hy), runLoop_append]

/-- C87 (consequence): fitting twice leaves other states than fitting once. -/
theorem C87_refit_differs : ∃ (c : Cfg) (p : Pars) (y : List V) (s1 s2 : St), fitState c p (fresh c) y = .ok s1 ∧
    fitState c p s1 y = .ok s2 ∧ s1 ≠ s2 ∧ c.store = id ∧ p.alpha = 1/5 ∧ p.beta = 0 ∧ p.g1 = 1/10 ∧ p.g2 = 1/10 := by
  refine ⟨⟨1, 1, 1, none, none, id⟩, ⟨1/5, 0, 1/10, 1/10⟩, [some 1, some 2], _, _, rfl, rfl, ?_, rfl, rfl, rfl, rfl, rfl⟩
  decide +kernel

/-! ### Instances -/

/-- A concrete configuration: periods 2 and 4, two steps, seasonal values within [-5, 5]. -/
def cfgEx : Cfg := ⟨2, 4, 2, some (-5), some 5, id⟩
def parsEx : Pars := ⟨1/5, 0, 1/10, 1/10⟩
def stEx : St := ⟨some 1, some 1, [some 1, some (-1)], [some 0, some 2, some 0, some (-2)]⟩

example : Live cfgEx stEx := by constructor <;> decide
/-- C37: one call or two. -/
example : (match serve cfgEx parsEx stEx [[some 3], [some 1, some 4]], predict cfgEx parsEx stEx [some 3, some 1, some 4] with
    | .ok a, .ok b => decide (a = b ∧ a.2.length = 3) | _, _ => false) = true := by decide +kernel
/-- C37: the first forecast of a first call changes with the last observation. -/
example : (match predict cfgEx parsEx (fresh cfgEx) [some 3, some 1], predict cfgEx parsEx (fresh cfgEx) [some 3, some 4] with
    | .ok a, .ok b => decide (a.2[0]? ≠ b.2[0]?) | _, _ => false) = true := by decide +kernel
/-- C38: a signal with trend and both seasonal components, and states describing it. -/
def sigEx : Signal cfgEx where
  level := 0
  slope := 1
  S1 t := if t % 2 = 0 then 1 else -1
  S2 t := if t % 4 = 0 then 2 else if t % 4 = 2 then -2 else 0
  per1 t := by simp [cfgEx]
  per2 t := by simp [cfgEx]
example : Agree sigEx ⟨some 3, some 1, [some 1, some (-1)], [some 2, some 0, some (-2), some 0]⟩ 3 := by
  refine ⟨?_, rfl, ?_, ?_⟩ <;> decide +kernel
/-- C40: a missing observation, then complete data: NaN rows come back every two steps. -/
example : (match serve cfgEx parsEx stEx ([none] :: [3, 1, 4, 1, 5, 9].map (fun (y : ℚ) => [some y])) with
    | .ok a => decide (a.2.map (fun r => r.map Option.isSome) = [[false, false], [false, true], [false, false], [false, true], [false, false], [false, true], [false, false]])
    | _ => false) = true := by decide +kernel
/-- C84: counts alternating between 4 and 0 on an hourly grid with the default smoothing parameters. -/
example : (match predict ⟨2, 4, 2, none, none, trunc⟩ parsEx (fresh cfgEx) ([4, 0, 4, 0, 4, 0].map some) with
    | .ok a => decide (a.1.s1 = [some 0, some 0]) | _ => false) = true := by decide +kernel
/-- C85: two quantile levels, three steps: row 1 of the table is left zero, row 2 comes from the last submodel. -/
example : (match multiTable 2 3 ((List.range 3).map (fun (i : Nat) => (i + 1, fun (c : Nat) => (i, c)))) with
    | .ok t => decide (t 0 = some (0, 0) ∧ t 1 = none ∧ t 2 = some (2, 2)) | _ => false) = true := by decide +kernel
/-- C86: residuals proportional to the target are tabulated as no error at all. -/
example : tabulated [(1, 2), (3, 6)] = [0, 0] := by decide +kernel

end PyF.HW
