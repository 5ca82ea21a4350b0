import Verif.NNTrain.Lemmas

namespace PyF.NNTrain

open PyF

variable {P O K : Type} [Field K] [LinearOrder K]

/-! ### C68: batches -/

theorem batches_flatten (perm : List ℕ) (b m : ℕ) : ((List.range m).map (batch perm b)).flatten = perm.take (m * b) := by
  induction m with
  | zero => simp
  | succ m ih =>
    rw [List.range_succ, List.map_append, List.flatten_append, ih, Nat.succ_mul, List.take_add]
    simp [batch]

omit [Field K] [LinearOrder K] in
/-- **C68.** In every epoch no row is used twice, every batch has exactly `batch_size` rows of the training set, and fewer than `batch_size` rows are left out. -/
theorem C68_batches (c : Cfg P O K) (e : ℕ) (hp : (c.perm e).Perm (List.range c.n)) :
    (epochBatches c e).flatten.Nodup ∧ (∀ r ∈ epochBatches c e, r.length = bs c ∧ ∀ i ∈ r, i < c.n) ∧
    (epochBatches c e).length = c.n / bs c ∧ (epochBatches c e).flatten.length + c.n % bs c = c.n := by
  have hlen : (c.perm e).length = c.n := by simpa using hp.length_eq
  have hnd : (c.perm e).Nodup := hp.nodup_iff.2 List.nodup_range
  have hmul : numBatches c * bs c ≤ c.n := Nat.div_mul_le_self _ _
  refine ⟨?_, ?_, by simp [epochBatches, numBatches], ?_⟩
  · unfold epochBatches
    rw [batches_flatten]
    exact hnd.sublist (List.take_sublist _ _)
  · intro r hr
    obtain ⟨i, hi, rfl⟩ := List.mem_map.1 hr
    have hi' : i + 1 ≤ numBatches c := List.mem_range.1 hi
    have h1 : (i + 1) * bs c ≤ numBatches c * bs c := Nat.mul_le_mul_right _ hi'
    rw [Nat.succ_mul] at h1
    constructor
    · simp only [batch, List.length_take, List.length_drop, hlen]
      omega
    · intro j hj
      have : j ∈ c.perm e := List.mem_of_mem_drop (List.mem_of_mem_take hj)
      exact List.mem_range.1 (hp.mem_iff.1 this)
  · unfold epochBatches
    rw [batches_flatten, List.length_take, hlen, Nat.min_eq_left hmul]
    have := Nat.div_add_mod c.n (bs c)
    rw [Nat.mul_comm] at this
    exact this

/-! ### C68: the loop -/

/-- **C68.** The training steps are the batches of the epochs in order, cut short only by early stopping; there are at most
`n_epochs * (n // batch_size)` of them, and the current parameters are those trained on exactly these batches. -/
theorem C68_steps (c : Cfg P O K) (p0 : P) (o0 : O) (self0 : P) (st : St P O K) (fin : Bool) (p : P) (h : fit c p0 o0 self0 = .ok (st, fin, p)) :
    st.steps <+: (List.range c.nEpochs).flatMap (epochBatches c) ∧ (fin = false → st.steps = (List.range c.nEpochs).flatMap (epochBatches c)) ∧
    st.steps.length ≤ c.nEpochs * (c.n / bs c) ∧ st.pars = (trained c p0 o0 st.steps).1 := by
  obtain ⟨_, ho, _⟩ := fit_ok h
  obtain ⟨pre, h1, h2, h3⟩ := outer_steps _ _ _ _ ho
  have h2' : st.steps = pre := by simpa [start] using h2
  rw [h2']
  refine ⟨h1, h3, ?_, ?_⟩
  · have := h1.length_le
    have hl : ((List.range c.nEpochs).flatMap (epochBatches c)).length = c.nEpochs * (c.n / bs c) := by
      rw [List.length_flatMap]
      simp [epochBatches, numBatches, List.map_const']
    omega
  · have := (inv_outer ho).pars
    rw [h2'] at this
    exact congrArg Prod.fst this

/-- **C68.** The evaluations: the i-th one takes place at counter `i * stats_step`, on the parameters trained on the batches up to and including that one. -/
theorem C68_evaluations (c : Cfg P O K) (p0 : P) (o0 : O) (self0 : P) (st : St P O K) (fin : Bool) (p : P) (h : fit c p0 o0 self0 = .ok (st, fin, p)) :
    st.evals.map Eval.k = evalTimes c.statsStep st.evals.length ∧ (st.steps ≠ [] → st.evals.length = (st.steps.length - 1) / c.statsStep) ∧
    ∀ e ∈ st.evals, e.loss = c.loss e.k e.pars ∧ e.k < st.steps.length ∧ e.pars = (trained c p0 o0 (st.steps.take (e.k + 1))).1 := by
  obtain ⟨_, ho, _⟩ := fit_ok h
  have hi := inv_outer ho
  exact ⟨hi.times, hi.last, hi.loss⟩

/-- **C68.** The parameters kept: if the last recorded loss is above the one before, those of the evaluation before; otherwise the current ones. After an early
stop the current ones are those of the last evaluation. -/
theorem C68_result (c : Cfg P O K) (p0 : P) (o0 : O) (self0 : P) (st : St P O K) (fin : Bool) (p : P) (h : fit c p0 o0 self0 = .ok (st, fin, p)) :
    (st.evals.length < 2 → p = st.pars) ∧
    (∀ e e' l, st.evals = e :: e' :: l → ∀ a b, e.loss = some a → e'.loss = some b → (b < a → p = e'.pars) ∧ (a ≤ b → p = st.pars)) ∧
    (fin = true → ∃ e e' l, st.evals = e :: e' :: l ∧ st.pars = e.pars) := by
  obtain ⟨_, ho, hf⟩ := fit_ok h
  have hi := inv_outer ho
  refine ⟨?_, ?_, ?_⟩
  · intro hl
    unfold finish at hf
    rw [hi.val] at hf
    match he : st.evals, hl with
    | [], _ => rw [he] at hf; simp at hf; exact hf.symm
    | [e], _ => rw [he] at hf; simp at hf; exact hf.symm
  · intro e e' l he a b ha hb
    unfold finish at hf
    rw [hi.val, he] at hf
    simp only [List.map_cons, ha, hb] at hf
    constructor
    · intro hlt
      rw [if_pos hlt, hi.old e e' l he] at hf
      cases hf; rfl
    · intro hle
      rw [if_neg (not_lt.2 hle)] at hf
      cases hf; rfl
  · intro hfin
    obtain ⟨e, l, h1, h2, _, h3⟩ := hi.fin hfin
    cases l with
    | nil => exact absurd rfl h3
    | cons e' l => exact ⟨e, e', l, h1, h2⟩

/-! ### NaN -/

/-- Between iterations: at most one loss is recorded or none is NaN. -/
theorem nan_body {c : Cfg P O K} {st st' : St P O K} {r : List ℕ} {b : Bool} (hb : body c st r = .ok (st', b)) (h : st.val.length ≤ 1 ∨ none ∉ st.val) :
    st'.val.length ≤ 1 ∨ none ∉ st'.val := by
  have hd : ∀ t, decideStop c st.k (evald c st r).val = .ok t → none ∉ (evald c st r).val := by
    intro t ht hn
    unfold decideStop at ht
    rw [(allSome_none_iff _).2 hn] at ht
    cases ht
  obtain ⟨_, ⟨_, _, rfl⟩ | ⟨_, ⟨_, rfl, _, h2⟩ | ⟨_, rfl, h2⟩⟩⟩ := body_cases hb
  · exact h
  · exact Or.inr (hd _ h2)
  · rcases h2 with h2 | h2
    · left; show (evald c st r).val.length ≤ 1; omega
    · exact Or.inr (hd _ h2)

theorem nan_outer {c : Cfg P O K} {p0 : P} {o0 : O} {self0 : P} {es : List ℕ} {st : St P O K} {b : Bool}
    (h : outer c es (start p0 o0 self0) = .ok (st, b)) : st.val.length ≤ 1 ∨ none ∉ st.val :=
  outer_inv (fun st _ => st.val.length ≤ 1 ∨ none ∉ st.val) (fun _ _ _ _ hi hb => nan_body hb hi) es _ _ _ (Or.inl (by simp [start])) h

theorem body_error {c : Cfg P O K} {st : St P O K} {r : List ℕ} {e : PyErr} (h : body c st r = .error e) :
    (c.statsStep = 0 ∧ e = .zeroDivisionError) ∨ (e = .indexError ∧ none ∈ (evald c st r).val ∧ 2 ≤ (evald c st r).val.length) := by
  unfold body at h
  by_cases hs : c.statsStep = 0
  · rw [if_pos hs] at h; cases h; exact Or.inl ⟨hs, rfl⟩
  rw [if_neg hs] at h
  right
  by_cases hk : st.k % c.statsStep = 0 ∧ 0 < st.k
  · rw [if_pos hk] at h
    by_cases hl : 2 ≤ (record c st (c.step st.pars st.opt r).1 (c.step st.pars st.opt r).2 r).val.length
    · rw [if_pos hl] at h
      cases hd : decideStop c st.k (record c st (c.step st.pars st.opt r).1 (c.step st.pars st.opt r).2 r).val with
      | error e' =>
        rw [hd] at h; cases h
        unfold decideStop at hd
        cases ha : allSome (record c st (c.step st.pars st.opt r).1 (c.step st.pars st.opt r).2 r).val with
        | none => rw [ha] at hd; cases hd; exact ⟨rfl, (allSome_none_iff _).1 ha, hl⟩
        | some vs =>
          rw [ha] at hd
          match vs with
          | [] => cases hd
          | [_] => cases hd
          | _ :: _ :: _ => cases hd
      | ok t => rw [hd] at h; cases t <;> cases h
    · rw [if_neg hl] at h; cases h
  · rw [if_neg hk] at h; cases h

theorem inner_error {c : Cfg P O K} (bsl : List (List ℕ)) (st : St P O K) (e : PyErr) (h : inner c bsl st = .error e) :
    (c.statsStep = 0 ∧ e = .zeroDivisionError) ∨ e = .indexError := by
  induction bsl generalizing st with
  | nil => cases h
  | cons r rs ih =>
    unfold inner at h
    cases hb : body c st r with
    | error e' =>
      rw [hb] at h; cases h
      rcases body_error hb with h | h
      · exact Or.inl h
      · exact Or.inr h.1
    | ok q =>
      obtain ⟨st1, b1⟩ := q
      rw [hb] at h
      cases b1 with
      | true => cases h
      | false => exact ih st1 h

theorem outer_error {c : Cfg P O K} (es : List ℕ) (st : St P O K) (e : PyErr) (h : outer c es st = .error e) :
    (c.statsStep = 0 ∧ e = .zeroDivisionError) ∨ e = .indexError := by
  induction es generalizing st with
  | nil => cases h
  | cons e es ih =>
    unfold outer at h
    cases hb : inner c (epochBatches c e) st with
    | error e' => rw [hb] at h; cases h; exact inner_error _ _ _ hb
    | ok q =>
      obtain ⟨st1, b1⟩ := q
      rw [hb] at h
      cases b1 with
      | true => cases h
      | false => exact ih st1 h

omit [Field K] in
theorem finish_ok {c : Cfg P O K} {p0 : P} {o0 : O} {st : St P O K} {b : Bool} (hi : Inv c p0 o0 st b) : ∃ p, finish st = .ok p := by
  unfold finish
  rw [hi.val]
  match he : st.evals with
  | [] => exact ⟨_, rfl⟩
  | [e] => exact ⟨st.pars, by simp⟩
  | e :: e' :: l =>
    simp only [List.map_cons]
    cases e.loss with
    | none => exact ⟨_, rfl⟩
    | some a =>
      cases e'.loss with
      | none => exact ⟨_, rfl⟩
      | some b =>
        simp only
        rw [hi.old e e' l he]
        by_cases hab : b < a
        · rw [if_pos hab]; exact ⟨_, rfl⟩
        · rw [if_neg hab]; exact ⟨_, rfl⟩

theorem fit_error {c : Cfg P O K} {p0 : P} {o0 : O} {self0 : P} {e : PyErr} (hb : bs c ≠ 0) (hs : c.statsStep ≠ 0) (h : fit c p0 o0 self0 = .error e) :
    e = .indexError := by
  unfold fit at h
  rw [if_neg hb] at h
  cases ho : outer c (List.range c.nEpochs) (start p0 o0 self0) with
  | error e' =>
    rw [ho] at h; cases h
    rcases outer_error _ _ _ ho with h | h
    · exact absurd h.1 hs
    · exact h
  | ok q =>
    obtain ⟨st, b⟩ := q
    rw [ho] at h
    simp only at h
    obtain ⟨p, hp⟩ := finish_ok (inv_outer ho)
    rw [hp] at h; cases h

/-- **C118.** If training succeeds, no recorded validation loss is NaN unless only one was recorded. -/
theorem C118_nan_free (c : Cfg P O K) (p0 : P) (o0 : O) (self0 : P) (st : St P O K) (fin : Bool) (p : P) (h : fit c p0 o0 self0 = .ok (st, fin, p)) :
    st.evals.length ≤ 1 ∨ ∀ e ∈ st.evals, e.loss ≠ none := by
  obtain ⟨_, ho, _⟩ := fit_ok h
  have hi := inv_outer ho
  rcases nan_outer ho with h | h
  · left; rw [hi.val] at h; simpa using h
  · right
    intro e he hn
    apply h
    rw [hi.val]
    exact List.mem_map.2 ⟨e, he, hn⟩

/-- **C118.** Defect: a validation loss that is NaN does not stop training gracefully. If the loss is always NaN and there are enough batches for two
evaluations, `fit` raises IndexError. -/
theorem C118_nan_raises (c : Cfg P O K) (p0 : P) (o0 : O) (self0 : P) (hb : bs c ≠ 0) (hs : c.statsStep ≠ 0) (hnan : ∀ k q, c.loss k q = none)
    (hlong : 2 * c.statsStep < c.nEpochs * (c.n / bs c)) : fit c p0 o0 self0 = .error .indexError := by
  cases hf : fit c p0 o0 self0 with
  | error e => rw [fit_error hb hs hf]
  | ok q =>
    obtain ⟨st, fin, p⟩ := q
    exfalso
    have hev := C68_evaluations c p0 o0 self0 st fin p hf
    have hn := C118_nan_free c p0 o0 self0 st fin p hf
    have hlen : st.evals.length ≤ 1 := by
      rcases hn with h | h
      · exact h
      · cases he : st.evals with
        | nil => simp
        | cons e l =>
          exfalso
          have hm : e ∈ st.evals := by rw [he]; exact List.mem_cons_self
          exact h e hm (by rw [(hev.2.2 e hm).1]; exact hnan _ _)
    cases fin with
    | true =>
      obtain ⟨e, e', l, h1, _⟩ := (C68_result c p0 o0 self0 st true p hf).2.2 rfl
      rw [h1] at hlen
      simp at hlen
    | false =>
      have hst := (C68_steps c p0 o0 self0 st false p hf).2.1 rfl
      have hl : st.steps.length = c.nEpochs * (c.n / bs c) := by
        rw [hst, List.length_flatMap]
        simp [epochBatches, numBatches, List.map_const']
      have hne : st.steps ≠ [] := by
        intro h0
        rw [h0, List.length_nil] at hl
        omega
      have h2 := hev.2.1 hne
      have h3 : 2 ≤ (st.steps.length - 1) / c.statsStep := by
        rw [Nat.le_div_iff_mul_le (Nat.pos_of_ne_zero hs)]
        omega
      omega

omit [Field K] [LinearOrder K] in
theorem bs_zero (c : Cfg P O K) (h : c.batchSize = none) : bs c = 0 ↔ c.n < 10 := by
  simp only [bs, h, Option.getD_none]
  omega

/-- **C119.** Defect: without a batch size `fit` raises ZeroDivisionError for fewer than ten training rows, and only then. -/
theorem C119_default_batch (c : Cfg P O K) (h : c.batchSize = none) (hs : c.statsStep ≠ 0) (p0 : P) (o0 : O) (self0 : P) :
    fit c p0 o0 self0 = .error .zeroDivisionError ↔ c.n < 10 := by
  rw [← bs_zero c h]
  constructor
  · intro hf
    by_contra hb
    have := fit_error hb hs hf
    cases this
  · intro hb
    unfold fit
    rw [if_pos hb]

/-- **C119.** Defect: with a batch size above the number of training rows no step is made, and the fitted network has the initial parameters. -/
theorem C119_large_batch (c : Cfg P O K) (b : ℕ) (h : c.batchSize = some b) (hb : c.n < b) (p0 : P) (o0 : O) (self0 : P) :
    fit c p0 o0 self0 = .ok (start p0 o0 self0, false, p0) := by
  have hbs : bs c = b := by simp [bs, h]
  have hnb : numBatches c = 0 := by unfold numBatches; rw [hbs]; exact Nat.div_eq_of_lt hb
  have hin : ∀ e st, inner c (epochBatches c e) st = .ok (st, false) := by
    intro e st
    simp [epochBatches, hnb, inner]
  have hout : ∀ es st, outer c es st = .ok (st, false) := by
    intro es
    induction es with
    | nil => intro st; rfl
    | cons e es ih =>
      intro st
      unfold outer
      rw [hin]
      exact ih st
  unfold fit
  rw [if_neg (by omega), hout]
  rfl

end PyF.NNTrain
