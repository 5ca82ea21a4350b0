import Verif.NNTrain.Model
import Mathlib.Algebra.Order.Field.Basic
import Mathlib.Algebra.Order.Group.Abs
import Mathlib.Data.List.Basic
import Mathlib.Data.List.Nodup
import Mathlib.Tactic.Linarith
import Mathlib.Tactic.Ring

namespace PyF.NNTrain

open PyF

variable {P O K : Type} [Field K] [LinearOrder K]

/-- The state after an ordinary step. -/
def plain (c : Cfg P O K) (st : St P O K) (rows : List ℕ) : St P O K :=
  { st with pars := (c.step st.pars st.opt rows).1, opt := (c.step st.pars st.opt rows).2, steps := st.steps ++ [rows], k := st.k + 1 }

/-- The state after a step with evaluation, before the counter moves. -/
def evald (c : Cfg P O K) (st : St P O K) (rows : List ℕ) : St P O K :=
  record c st (c.step st.pars st.opt rows).1 (c.step st.pars st.opt rows).2 rows

/-- The three ways an iteration can end without an exception. -/
theorem body_cases {c : Cfg P O K} {st st' : St P O K} {rows : List ℕ} {b : Bool} (h : body c st rows = .ok (st', b)) :
    c.statsStep ≠ 0 ∧
    ((¬ (st.k % c.statsStep = 0 ∧ 0 < st.k) ∧ b = false ∧ st' = plain c st rows) ∨
     ((st.k % c.statsStep = 0 ∧ 0 < st.k) ∧
       ((b = true ∧ st' = evald c st rows ∧ 2 ≤ (evald c st rows).val.length ∧ decideStop c st.k (evald c st rows).val = .ok true) ∨
        (b = false ∧ st' = { evald c st rows with k := st.k + 1 } ∧
          ((evald c st rows).val.length < 2 ∨ decideStop c st.k (evald c st rows).val = .ok false))))) := by
  unfold body at h
  by_cases hs : c.statsStep = 0
  · rw [if_pos hs] at h; cases h
  rw [if_neg hs] at h
  refine ⟨hs, ?_⟩
  by_cases hk : st.k % c.statsStep = 0 ∧ 0 < st.k
  · right
    rw [if_pos hk] at h
    refine ⟨hk, ?_⟩
    by_cases hl : 2 ≤ (record c st (c.step st.pars st.opt rows).1 (c.step st.pars st.opt rows).2 rows).val.length
    · rw [if_pos hl] at h
      cases hd : decideStop c st.k (record c st (c.step st.pars st.opt rows).1 (c.step st.pars st.opt rows).2 rows).val with
      | error e => rw [hd] at h; cases h
      | ok t =>
        cases t with
        | true => rw [hd] at h; cases h; left; exact ⟨rfl, rfl, hl, hd⟩
        | false => rw [hd] at h; cases h; right; exact ⟨rfl, rfl, Or.inr hd⟩
    · rw [if_neg hl] at h
      cases h
      right
      exact ⟨rfl, rfl, Or.inl (not_le.1 hl)⟩
  · left
    rw [if_neg hk] at h
    cases h
    exact ⟨hk, rfl, rfl⟩

/-- An invariant kept by every iteration holds at the end of the inner loop. -/
theorem inner_inv {c : Cfg P O K} (Q : St P O K → Bool → Prop) (hstep : ∀ st r st' b, Q st false → body c st r = .ok (st', b) → Q st' b)
    (bsl : List (List ℕ)) (st st' : St P O K) (b : Bool) (h0 : Q st false) (h : inner c bsl st = .ok (st', b)) : Q st' b := by
  induction bsl generalizing st with
  | nil => cases h; exact h0
  | cons r rs ih =>
    unfold inner at h
    cases hb : body c st r with
    | error e => rw [hb] at h; cases h
    | ok q =>
      obtain ⟨st1, b1⟩ := q
      rw [hb] at h
      cases b1 with
      | true => cases h; exact hstep _ _ _ _ h0 hb
      | false => exact ih st1 (hstep _ _ _ _ h0 hb) h

theorem outer_inv {c : Cfg P O K} (Q : St P O K → Bool → Prop) (hstep : ∀ st r st' b, Q st false → body c st r = .ok (st', b) → Q st' b)
    (es : List ℕ) (st st' : St P O K) (b : Bool) (h0 : Q st false) (h : outer c es st = .ok (st', b)) : Q st' b := by
  induction es generalizing st with
  | nil => cases h; exact h0
  | cons e es ih =>
    unfold outer at h
    cases hb : inner c (epochBatches c e) st with
    | error e => rw [hb] at h; cases h
    | ok q =>
      obtain ⟨st1, b1⟩ := q
      rw [hb] at h
      cases b1 with
      | true => cases h; exact inner_inv Q hstep _ _ _ _ h0 hb
      | false => exact ih st1 (inner_inv Q hstep _ _ _ _ h0 hb) h

/-! ### The batches actually used -/

theorem body_steps {c : Cfg P O K} {st st' : St P O K} {r : List ℕ} {b : Bool} (h : body c st r = .ok (st', b)) : st'.steps = st.steps ++ [r] := by
  obtain ⟨_, ⟨_, _, rfl⟩ | ⟨_, ⟨_, rfl, _⟩ | ⟨_, rfl, _⟩⟩⟩ := body_cases h <;> rfl

theorem inner_steps {c : Cfg P O K} (bsl : List (List ℕ)) (st st' : St P O K) (b : Bool) (h : inner c bsl st = .ok (st', b)) :
    ∃ pre, pre <+: bsl ∧ st'.steps = st.steps ++ pre ∧ (b = false → pre = bsl) := by
  induction bsl generalizing st with
  | nil => cases h; exact ⟨[], List.prefix_rfl, by simp, fun _ => rfl⟩
  | cons r rs ih =>
    unfold inner at h
    cases hb : body c st r with
    | error e => rw [hb] at h; cases h
    | ok q =>
      obtain ⟨st1, b1⟩ := q
      rw [hb] at h
      have h1 := body_steps hb
      cases b1 with
      | true =>
        cases h
        exact ⟨[r], ⟨rs, rfl⟩, h1, fun h => by cases h⟩
      | false =>
        obtain ⟨pre, hp, hs, hf⟩ := ih st1 h
        refine ⟨r :: pre, List.cons_prefix_cons.2 ⟨rfl, hp⟩, ?_, fun hb => by rw [hf hb]⟩
        rw [hs, h1]
        simp

theorem outer_steps {c : Cfg P O K} (es : List ℕ) (st st' : St P O K) (b : Bool) (h : outer c es st = .ok (st', b)) :
    ∃ pre, pre <+: es.flatMap (epochBatches c) ∧ st'.steps = st.steps ++ pre ∧ (b = false → pre = es.flatMap (epochBatches c)) := by
  induction es generalizing st with
  | nil => cases h; exact ⟨[], List.prefix_rfl, by simp, fun _ => rfl⟩
  | cons e es ih =>
    unfold outer at h
    cases hb : inner c (epochBatches c e) st with
    | error e => rw [hb] at h; cases h
    | ok q =>
      obtain ⟨st1, b1⟩ := q
      rw [hb] at h
      obtain ⟨pre1, hp1, hs1, hf1⟩ := inner_steps _ _ _ _ hb
      cases b1 with
      | true =>
        cases h
        refine ⟨pre1, ?_, hs1, fun h => by cases h⟩
        rw [List.flatMap_cons]
        exact hp1.trans (List.prefix_append _ _)
      | false =>
        obtain ⟨pre, hp, hs, hf⟩ := ih st1 h
        have := hf1 rfl
        subst this
        refine ⟨epochBatches c e ++ pre, ?_, ?_, ?_⟩
        · rw [List.flatMap_cons]; exact (List.prefix_append_right_inj _).2 hp
        · rw [hs, hs1, List.append_assoc]
        · intro hb; rw [hf hb, List.flatMap_cons]

/-! ### The bookkeeping -/

/-- Parameters and optimiser state after training on the given batches. -/
def trained (c : Cfg P O K) (p0 : P) (o0 : O) (steps : List (List ℕ)) : P × O := steps.foldl (fun q r => c.step q.1 q.2 r) (p0, o0)

/-- The counters at which evaluations take place: multiples of `stats_step`, newest first. -/
def evalTimes (s : ℕ) : ℕ → List ℕ
  | 0 => []
  | m + 1 => (m + 1) * s :: evalTimes s m

/-- What holds between iterations (`fin = false`) and after a break (`fin = true`). -/
structure Inv (c : Cfg P O K) (p0 : P) (o0 : O) (st : St P O K) (fin : Bool) : Prop where
  count : st.steps.length = st.k + (if fin then 1 else 0)
  pars : (st.pars, st.opt) = trained c p0 o0 st.steps
  val : st.val = st.evals.map Eval.loss
  loss : ∀ e ∈ st.evals, e.loss = c.loss e.k e.pars ∧ e.k < st.steps.length ∧ e.pars = (trained c p0 o0 (st.steps.take (e.k + 1))).1
  times : st.evals.map Eval.k = evalTimes c.statsStep st.evals.length
  last : st.steps ≠ [] → st.evals.length = (st.steps.length - 1) / c.statsStep
  none : st.steps = [] → st.evals = []
  self : ∀ e l, st.evals = e :: l → st.self = e.pars
  old : ∀ e e' l, st.evals = e :: e' :: l → st.old = some e'.pars
  fin : fin = true → ∃ e l, st.evals = e :: l ∧ st.pars = e.pars ∧ e.k = st.k ∧ l ≠ []

omit [Field K] [LinearOrder K] in
theorem inv_start (c : Cfg P O K) (p0 : P) (o0 : O) (self0 : P) : Inv c p0 o0 (start p0 o0 self0) false := by
  refine ⟨rfl, rfl, rfl, ?_, rfl, ?_, fun _ => rfl, ?_, ?_, ?_⟩
  · intro e he; cases he
  · intro h; exact absurd rfl h
  · intro e l h; cases h
  · intro e e' l h; cases h
  · intro h; cases h

omit [Field K] [LinearOrder K] in
theorem trained_snoc (c : Cfg P O K) (p0 : P) (o0 : O) (steps : List (List ℕ)) (r : List ℕ) :
    trained c p0 o0 (steps ++ [r]) = c.step (trained c p0 o0 steps).1 (trained c p0 o0 steps).2 r := by
  simp [trained]

omit [Field K] [LinearOrder K] in
/-- Evaluations recorded so far keep their description when a step is appended. -/
theorem loss_mono {c : Cfg P O K} {p0 : P} {o0 : O} {steps : List (List ℕ)} {r : List ℕ} {e : Eval P K}
    (h : e.loss = c.loss e.k e.pars ∧ e.k < steps.length ∧ e.pars = (trained c p0 o0 (steps.take (e.k + 1))).1) :
    e.loss = c.loss e.k e.pars ∧ e.k < (steps ++ [r]).length ∧ e.pars = (trained c p0 o0 ((steps ++ [r]).take (e.k + 1))).1 := by
  obtain ⟨h1, h2, h3⟩ := h
  refine ⟨h1, by simp; omega, ?_⟩
  rw [List.take_append_of_le_length (by omega)]
  exact h3

theorem div_same {k s : ℕ} (hs : s ≠ 0) (h : ¬ (k % s = 0 ∧ 0 < k)) : k / s = (k - 1) / s := by
  rcases Nat.eq_zero_or_pos k with rfl | hk
  · rfl
  · have hm : k % s ≠ 0 := fun h0 => h ⟨h0, hk⟩
    have hpos : 0 < s := Nat.pos_of_ne_zero hs
    have h1 := Nat.div_add_mod k s
    have h3 : k % s < s := Nat.mod_lt _ hpos
    have h2 : k - 1 = s * (k / s) + (k % s - 1) := by
      generalize k / s = q at *
      generalize k % s = m at *
      omega
    have h4 : (k % s - 1) / s = 0 := Nat.div_eq_of_lt (lt_of_le_of_lt (Nat.sub_le _ _) h3)
    have h5 : (s * (k / s) + (k % s - 1)) / s = k / s := by rw [Nat.mul_add_div hpos, h4, Nat.add_zero]
    rw [← h2] at h5
    exact h5.symm

theorem div_step {k s : ℕ} (hs : s ≠ 0) (h : k % s = 0 ∧ 0 < k) : k / s = (k - 1) / s + 1 := by
  have hpos : 0 < s := Nat.pos_of_ne_zero hs
  obtain ⟨q, rfl⟩ := Nat.dvd_of_mod_eq_zero h.1
  have hq : 0 < q := by
    rcases Nat.eq_zero_or_pos q with rfl | hq
    · simp at h
    · exact hq
  obtain ⟨m, rfl⟩ : ∃ m, q = m + 1 := ⟨q - 1, by omega⟩
  rw [Nat.mul_div_cancel_left _ hpos]
  have : s * (m + 1) - 1 = s * m + (s - 1) := by rw [Nat.mul_succ]; omega
  rw [this, Nat.mul_add_div hpos, Nat.div_eq_of_lt (by omega)]

omit [Field K] [LinearOrder K] in
/-- Number of evaluations before the counter `k`, and the next one. -/
theorem Inv.evals_len {c : Cfg P O K} {p0 : P} {o0 : O} {st : St P O K} (h : Inv c p0 o0 st false) : st.evals.length = (st.k - 1) / c.statsStep := by
  have hc := h.count
  simp only [Bool.false_eq_true, if_false, Nat.add_zero] at hc
  by_cases hn : st.steps = []
  · rw [h.none hn]
    have : st.k = 0 := by rw [← hc, hn]; rfl
    simp [this]
  · rw [h.last hn, hc]

theorem inv_body {c : Cfg P O K} {p0 : P} {o0 : O} {st st' : St P O K} {r : List ℕ} {b : Bool} (h : Inv c p0 o0 st false)
    (hb : body c st r = .ok (st', b)) : Inv c p0 o0 st' b := by
  have hl := h.evals_len
  have hcount := h.count
  simp only [Bool.false_eq_true, if_false, Nat.add_zero] at hcount
  have hpar : c.step st.pars st.opt r = trained c p0 o0 (st.steps ++ [r]) := by
    rw [trained_snoc, ← h.pars]
  obtain ⟨hs, ⟨hk, rfl, rfl⟩ | ⟨hk, hcase⟩⟩ := body_cases hb
  · have hd := div_same hs hk
    refine ⟨?_, ?_, h.val, ?_, h.times, ?_, ?_, h.self, h.old, ?_⟩
    · simp [plain, hcount]
    · simp only [plain]; rw [← hpar]
    · intro e he; exact loss_mono (h.loss e he)
    · intro _
      show st.evals.length = ((st.steps ++ [r]).length - 1) / c.statsStep
      rw [hl, List.length_append, List.length_singleton, Nat.add_sub_cancel, hcount, hd]
    · intro hn; simp [plain] at hn
    · intro hf; cases hf
  · have hd := div_step hs hk
    have hkq : st.k = ((st.k - 1) / c.statsStep + 1) * c.statsStep := by
      rw [← hd]; exact (Nat.div_mul_cancel (Nat.dvd_of_mod_eq_zero hk.1)).symm
    have hnew : ∀ e ∈ (evald c st r).evals, e.loss = c.loss e.k e.pars ∧ e.k < (st.steps ++ [r]).length ∧
        e.pars = (trained c p0 o0 ((st.steps ++ [r]).take (e.k + 1))).1 := by
      intro e he
      rcases List.mem_cons.1 he with rfl | he
      · refine ⟨rfl, by simp [hcount], ?_⟩
        show (c.step st.pars st.opt r).1 = _
        rw [List.take_of_length_le (by simp [hcount]), hpar]
      · exact loss_mono (h.loss e he)
    have htimes : (evald c st r).evals.map Eval.k = evalTimes c.statsStep (evald c st r).evals.length := by
      show st.k :: st.evals.map Eval.k = evalTimes c.statsStep (st.evals.length + 1)
      rw [evalTimes, h.times, hl, ← hkq]
    have hlast : (evald c st r).evals.length = ((st.steps ++ [r]).length - 1) / c.statsStep := by
      show st.evals.length + 1 = _
      rw [hl, List.length_append, List.length_singleton, Nat.add_sub_cancel, hcount, hd]
    have hold : ∀ e e' l, (evald c st r).evals = e :: e' :: l → (evald c st r).old = some e'.pars := by
      intro e e' l he
      have : st.evals = e' :: l := (List.cons.inj he).2
      show some st.self = _
      rw [h.self e' l this]
    have hself : ∀ e l, (evald c st r).evals = e :: l → (evald c st r).self = e.pars := by
      intro e l he
      rw [← (List.cons.inj he).1]
      rfl
    have hval : (evald c st r).val = (evald c st r).evals.map Eval.loss := by
      show c.loss st.k _ :: st.val = c.loss st.k _ :: st.evals.map Eval.loss
      rw [h.val]
    rcases hcase with ⟨rfl, rfl, h2, _⟩ | ⟨rfl, rfl, _⟩
    · refine ⟨?_, ?_, hval, hnew, htimes, fun _ => hlast, ?_, hself, hold, ?_⟩
      · show (st.steps ++ [r]).length = st.k + 1
        simp [hcount]
      · show ((c.step st.pars st.opt r).1, (c.step st.pars st.opt r).2) = _
        exact hpar
      · intro hn; simp [evald, record] at hn
      · intro _
        refine ⟨_, _, rfl, rfl, rfl, ?_⟩
        intro hn
        have : (evald c st r).val.length = 1 := by
          show st.val.length + 1 = 1
          rw [h.val, hn]; rfl
        omega
    · refine ⟨?_, ?_, hval, hnew, htimes, fun _ => hlast, ?_, hself, hold, ?_⟩
      · show (st.steps ++ [r]).length = st.k + 1 + 0
        simp [hcount]
      · show ((c.step st.pars st.opt r).1, (c.step st.pars st.opt r).2) = _
        exact hpar
      · intro hn; simp [evald, record] at hn
      · intro hf; cases hf

theorem inv_outer {c : Cfg P O K} {p0 : P} {o0 : O} {self0 : P} {es : List ℕ} {st : St P O K} {b : Bool}
    (h : outer c es (start p0 o0 self0) = .ok (st, b)) : Inv c p0 o0 st b :=
  outer_inv (Inv c p0 o0) (fun _ _ _ _ hi hb => inv_body hi hb) es _ _ _ (inv_start c p0 o0 self0) h

theorem fit_ok {c : Cfg P O K} {p0 : P} {o0 : O} {self0 : P} {st : St P O K} {b : Bool} {p : P} (h : fit c p0 o0 self0 = .ok (st, b, p)) :
    bs c ≠ 0 ∧ outer c (List.range c.nEpochs) (start p0 o0 self0) = .ok (st, b) ∧ finish st = .ok p := by
  unfold fit at h
  by_cases hb : bs c = 0
  · rw [if_pos hb] at h; cases h
  · rw [if_neg hb] at h
    cases ho : outer c (List.range c.nEpochs) (start p0 o0 self0) with
    | error e => rw [ho] at h; cases h
    | ok q =>
      obtain ⟨st1, b1⟩ := q
      rw [ho] at h
      simp only at h
      cases hf : finish st1 with
      | error e => rw [hf] at h; cases h
      | ok p1 => rw [hf] at h; cases h; exact ⟨hb, rfl, hf⟩

omit [Field K] [LinearOrder K] in
theorem allSome_iff (l : List (Option K)) (vs : List K) : allSome l = some vs ↔ l = vs.map some := by
  induction l generalizing vs with
  | nil => cases vs <;> simp [allSome]
  | cons a l ih =>
    cases a with
    | none => cases vs <;> simp [allSome]
    | some v =>
      cases vs with
      | nil => simp only [allSome]; split <;> simp
      | cons w ws =>
        simp only [allSome, List.map_cons, List.cons.injEq, Option.some.injEq]
        cases h : allSome l with
        | none =>
          simp only [reduceCtorEq, false_iff, not_and]
          intro _ hl
          rw [(ih ws).2 hl] at h; cases h
        | some us =>
          simp only [Option.some.injEq, List.cons.injEq]
          have h1 := ih ws
          rw [h, Option.some.injEq] at h1
          rw [h1]

omit [Field K] [LinearOrder K] in
theorem allSome_none_iff (l : List (Option K)) : allSome l = none ↔ none ∈ l := by
  induction l with
  | nil => simp [allSome]
  | cons a l ih =>
    cases a with
    | none => simp [allSome]
    | some v =>
      simp only [allSome, List.mem_cons, reduceCtorEq, false_or]
      rw [← ih]
      cases allSome l <;> simp

end PyF.NNTrain
