import Verif.NNSeed.Model
import Verif.NNTrain.Lemmas

namespace PyF.NNSeed

open PyF PyF.NNTrain

variable {P O K G : Type} [Field K] [LinearOrder K]

/-- The configuration with given draws. -/
def given (c : Cfg P O K) (perm : ℕ → List ℕ) (loss : ℕ → P → Option K) : Cfg P O K := { c with perm := perm, loss := loss }

theorem body_congr (c : Cfg P O K) (q q' : ℕ → List ℕ) (l l' : ℕ → P → Option K) (st : St P O K) (rows : List ℕ) (h : l st.k = l' st.k) :
    NNTrain.body (given c q l) st rows = NNTrain.body (given c q' l') st rows := by
  have hr : ∀ p o, record (given c q l) st p o rows = record (given c q' l') st p o rows := fun p o => by
    have h' : (given c q l).loss st.k = (given c q' l').loss st.k := h
    unfold record
    rw [h']
  unfold NNTrain.body
  simp only [hr]
  rfl

theorem body_plain (c : Cfg P O K) (q q' : ℕ → List ℕ) (l l' : ℕ → P → Option K) (st : St P O K) (rows : List ℕ)
    (h : ¬ (c.statsStep ≠ 0 ∧ st.k % c.statsStep = 0 ∧ 0 < st.k)) :
    NNTrain.body (given c q l) st rows = NNTrain.body (given c q' l') st rows := by
  unfold NNTrain.body
  by_cases hs : c.statsStep = 0
  · have h1 : (given c q l).statsStep = 0 := hs
    have h2 : (given c q' l').statsStep = 0 := hs
    rw [if_pos h1, if_pos h2]
  · have h1 : ¬ (given c q l).statsStep = 0 := hs
    have h2 : ¬ (given c q' l').statsStep = 0 := hs
    have h3 : ¬ (st.k % (given c q l).statsStep = 0 ∧ 0 < st.k) := fun hk => h ⟨hs, hk⟩
    have h4 : ¬ (st.k % (given c q' l').statsStep = 0 ∧ 0 < st.k) := fun hk => h ⟨hs, hk⟩
    rw [if_neg h1, if_neg h2, if_neg h3, if_neg h4]
    rfl

/-- What an iteration does to the counter and the number of losses. -/
theorem body_count {c : Cfg P O K} {st st' : St P O K} {rows : List ℕ} {b : Bool} (h : NNTrain.body c st rows = .ok (st', b))
    (hv : st.val.length = (st.k - 1) / c.statsStep) :
    st'.val.length = st.k / c.statsStep ∧ (b = false → st'.k = st.k + 1) := by
  obtain ⟨hs, h⟩ := body_cases h
  rcases h with ⟨hk, rfl, rfl⟩ | ⟨hk, ⟨rfl, rfl, _, _⟩ | ⟨rfl, rfl, _⟩⟩
  · exact ⟨by simp only [plain]; rw [hv, div_same hs hk], fun _ => rfl⟩
  · exact ⟨by simp only [evald, record, List.length_cons]; rw [hv, div_step hs hk], fun hb => by cases hb⟩
  · exact ⟨by simp only [evald, record, List.length_cons]; rw [hv, div_step hs hk], fun _ => rfl⟩

/-- The generator after an iteration at step `k`. -/
def adv (s : ℕ) (r : Rng G) (plots : Bool) (g : G) (k : ℕ) : G :=
  if s ≠ 0 ∧ k % s = 0 ∧ 0 < k then (if plots = true ∧ 2 ≤ k / s then r.plot (r.sample g).2 else (r.sample g).2) else g

/-- The generator before step `k` (before the order of the rows is drawn, if an epoch begins), with `m` batches in an epoch. -/
def before (s m : ℕ) (r : Rng G) (plots : Bool) (g : G) : ℕ → G
  | 0 => g
  | k + 1 => adv s r plots (if k % m = 0 then (r.shuffle (before s m r plots g k)).2 else before s m r plots g k) k

/-- The generator in step `k`. -/
def during (s m : ℕ) (r : Rng G) (plots : Bool) (g : G) (k : ℕ) : G :=
  if k % m = 0 then (r.shuffle (before s m r plots g k)).2 else before s m r plots g k

/-- The order of the rows in an epoch. -/
def drawnPerm (s m : ℕ) (r : Rng G) (plots : Bool) (g : G) (e : ℕ) : List ℕ := (r.shuffle (before s m r plots g (e * m))).1

/-- The loss at a step. -/
def drawnLoss (s m : ℕ) (vl : P → List ℕ → Option K) (r : Rng G) (plots : Bool) (g : G) (k : ℕ) (p : P) : Option K :=
  vl p (r.sample (during s m r plots g k)).1

theorem before_succ (s m : ℕ) (r : Rng G) (plots : Bool) (g : G) (k : ℕ) :
    before s m r plots g (k + 1) = adv s r plots (during s m r plots g k) k := rfl

/-- One iteration with the generator is one with the draws given. -/
theorem body_eq (c : Cfg P O K) (vl : P → List ℕ → Option K) (r : Rng G) (plots : Bool) (g : G) (m : ℕ) (st : St P O K) (rows : List ℕ)
    (hv : st.val.length = (st.k - 1) / c.statsStep) (perm : ℕ → List ℕ) :
    body c vl r plots st (during c.statsStep m r plots g st.k) rows =
      match NNTrain.body (given c perm (drawnLoss c.statsStep m vl r plots g)) st rows with
      | .error e => .error e
      | .ok (st', b) => .ok (st', before c.statsStep m r plots g (st.k + 1), b) := by
  rw [before_succ]
  unfold body adv
  by_cases h : c.statsStep ≠ 0 ∧ st.k % c.statsStep = 0 ∧ 0 < st.k
  · rw [if_pos h, if_pos h]
    have he : NNTrain.body { c with loss := fun _ p => vl p (r.sample (during c.statsStep m r plots g st.k)).1 } st rows =
        NNTrain.body (given c perm (drawnLoss c.statsStep m vl r plots g)) st rows :=
      body_congr c c.perm perm (fun _ p => vl p (r.sample (during c.statsStep m r plots g st.k)).1) _ st rows rfl
    rw [he]
    cases hb : NNTrain.body (given c perm (drawnLoss c.statsStep m vl r plots g)) st rows with
    | error e => rfl
    | ok x =>
      obtain ⟨st', b⟩ := x
      have hc := (body_count hb hv).1
      have hc' : st'.val.length = st.k / c.statsStep := hc
      simp only [hc']
  · rw [if_neg h, if_neg h]
    have he : NNTrain.body c st rows = NNTrain.body (given c perm (drawnLoss c.statsStep m vl r plots g)) st rows :=
      body_plain c c.perm perm c.loss _ st rows h
    rw [he]
    cases NNTrain.body (given c perm (drawnLoss c.statsStep m vl r plots g)) st rows <;> rfl

/-- The rest of an epoch: `j` steps of it are done. -/
theorem inner_eq (c : Cfg P O K) (vl : P → List ℕ → Option K) (r : Rng G) (plots : Bool) (g : G) (m : ℕ) (perm : ℕ → List ℕ) (bsl : List (List ℕ)) :
    ∀ (st : St P O K) (g' : G) (e j : ℕ), st.k = e * m + j → j + bsl.length = m → st.val.length = (st.k - 1) / c.statsStep →
      (bsl ≠ [] → g' = during c.statsStep m r plots g st.k) → (bsl = [] → g' = before c.statsStep m r plots g st.k) →
      (inner c vl r plots bsl st g' =
        match NNTrain.inner (given c perm (drawnLoss c.statsStep m vl r plots g)) bsl st with
        | .error e => .error e
        | .ok (st', true) => .ok (st', before c.statsStep m r plots g (st'.k + 1), true)
        | .ok (st', false) => .ok (st', before c.statsStep m r plots g ((e + 1) * m), false)) ∧
      ∀ st', NNTrain.inner (given c perm (drawnLoss c.statsStep m vl r plots g)) bsl st = .ok (st', false) →
        st'.k = (e + 1) * m ∧ st'.val.length = (st'.k - 1) / c.statsStep := by
  induction bsl with
  | nil =>
    intro st g' e j hk hj hv _ hg
    have hm : st.k = (e + 1) * m := by rw [hk, Nat.succ_mul]; simp at hj; omega
    constructor
    · simp only [inner, NNTrain.inner, hg rfl, hm]
    · intro st' h
      simp only [NNTrain.inner, Except.ok.injEq, Prod.mk.injEq, and_true] at h
      subst h
      exact ⟨hm, hv⟩
  | cons b bsl ih =>
    intro st g' e j hk hj hv hg _
    have hg := hg (by simp)
    subst hg
    simp only [List.length_cons] at hj
    rw [inner, body_eq c vl r plots g m st b hv perm, NNTrain.inner]
    cases hb : NNTrain.body (given c perm (drawnLoss c.statsStep m vl r plots g)) st b with
    | error e => simp
    | ok x =>
      obtain ⟨st', t⟩ := x
      have hc := body_count hb hv
      cases t with
      | true =>
        simp only [Except.ok.injEq, Prod.mk.injEq, and_true, Bool.true_eq_false, and_false, false_imp_iff, implies_true]
        obtain ⟨_, h | ⟨_, h | h⟩⟩ := body_cases hb
        · cases h.2.1
        · have : st'.k = st.k := by rw [h.2.1]; rfl
          simp [this]
        · cases h.1
      | false =>
        have hk' := hc.2 rfl
        have hv' : st'.val.length = (st'.k - 1) / c.statsStep := by rw [hk', Nat.add_sub_cancel]; exact hc.1
        have := ih st' (before c.statsStep m r plots g (st.k + 1)) e (j + 1) (by rw [hk', hk]; omega) (by omega) hv'
          (fun hne => by
            have hpos : 0 < bsl.length := List.length_pos_of_ne_nil hne
            rw [hk', during, if_neg]
            rw [hk, Nat.add_assoc, Nat.add_comm, Nat.add_mul_mod_self_right, Nat.mod_eq_of_lt (by omega)]
            omega)
          (fun _ => by rw [hk'])
        exact this

/-- Draws that agree where they are used give the same epoch. -/
theorem inner_congr (c : Cfg P O K) (q q' : ℕ → List ℕ) (l l' : ℕ → P → Option K) (bsl : List (List ℕ)) :
    ∀ (st : St P O K), (∀ k, st.k ≤ k → k < st.k + bsl.length → l k = l' k) →
      NNTrain.inner (given c q l) bsl st = NNTrain.inner (given c q' l') bsl st := by
  induction bsl with
  | nil => intro st _; rfl
  | cons b bsl ih =>
    intro st h
    simp only [List.length_cons] at h
    rw [NNTrain.inner, NNTrain.inner, body_congr c q q' l l' st b (h st.k (Nat.le_refl _) (by omega))]
    cases hb : NNTrain.body (given c q' l') st b with
    | error e => rfl
    | ok x =>
      obtain ⟨st', t⟩ := x
      cases t with
      | true => rfl
      | false =>
        have hk : st'.k = st.k + 1 := by
          obtain ⟨_, h | ⟨_, h | h⟩⟩ := body_cases hb
          · rw [h.2.2]; rfl
          · cases h.1
          · rw [h.2.1]
        exact ih st' (fun k h1 h2 => h k (by omega) (by omega))

theorem inner_k {c : Cfg P O K} (bsl : List (List ℕ)) : ∀ {st st' : St P O K}, NNTrain.inner c bsl st = .ok (st', false) → st'.k = st.k + bsl.length := by
  induction bsl with
  | nil =>
    intro st st' h
    simp only [NNTrain.inner, Except.ok.injEq, Prod.mk.injEq, and_true] at h
    subst h
    rfl
  | cons b bsl ih =>
    intro st st' h
    rw [NNTrain.inner] at h
    cases hb : NNTrain.body c st b with
    | error e => rw [hb] at h; cases h
    | ok x =>
      obtain ⟨st1, t⟩ := x
      rw [hb] at h
      cases t with
      | true => simp at h
      | false =>
        have hk : st1.k = st.k + 1 := by
          obtain ⟨_, h | ⟨_, h | h⟩⟩ := body_cases hb
          · rw [h.2.2]; rfl
          · cases h.1
          · rw [h.2.1]
        have := ih h
        simp only [List.length_cons]
        omega

/-- Draws that agree where they are used give the same run. -/
theorem outer_congr (c : Cfg P O K) (q q' : ℕ → List ℕ) (l l' : ℕ → P → Option K) (n : ℕ) :
    ∀ (e : ℕ) (st : St P O K), st.k = e * numBatches c → (∀ i, e ≤ i → i < e + n → 0 < numBatches c → q i = q' i) →
      (∀ k, k < (e + n) * numBatches c → l k = l' k) →
      NNTrain.outer (given c q l) (List.range' e n) st = NNTrain.outer (given c q' l') (List.range' e n) st := by
  induction n with
  | zero => intro e st _ _ _; rfl
  | succ n ih =>
    intro e st hk hq hl
    rw [List.range'_succ, NNTrain.outer, NNTrain.outer]
    have hb : epochBatches (given c q l) e = epochBatches (given c q' l') e := by
      change (List.range (numBatches c)).map (batch (q e) (bs c)) = (List.range (numBatches c)).map (batch (q' e) (bs c))
      rcases Nat.eq_zero_or_pos (numBatches c) with h0 | hp
      · rw [h0]; rfl
      · rw [hq e (Nat.le_refl _) (by omega) hp]
    have hlen : (epochBatches (given c q' l') e).length = numBatches c := by simp [epochBatches, given, numBatches, bs]
    rw [hb, inner_congr c q q' l l' _ st (fun k h1 h2 => hl k (by
      rw [hlen, hk] at h2
      refine lt_of_lt_of_le h2 ?_
      rw [← Nat.succ_mul]
      exact Nat.mul_le_mul_right _ (by omega)))]
    cases hi : NNTrain.inner (given c q' l') (epochBatches (given c q' l') e) st with
    | error e => rfl
    | ok x =>
      obtain ⟨st', t⟩ := x
      cases t with
      | true => rfl
      | false =>
        refine ih (e + 1) st' ?_ (fun i h1 h2 => hq i (by omega) (by omega)) (fun k h => hl k (by rwa [Nat.add_right_comm, Nat.add_assoc] at h))
        rw [inner_k _ hi, hlen, hk, Nat.succ_mul]

/-- The whole run with the generator is one with the draws given. -/
theorem outer_eq (c : Cfg P O K) (vl : P → List ℕ → Option K) (r : Rng G) (plots : Bool) (g : G) (hm : 0 < numBatches c) (n : ℕ) :
    ∀ (e : ℕ) (st : St P O K), st.k = e * numBatches c → st.val.length = (st.k - 1) / c.statsStep →
      outer c vl r plots n st (before c.statsStep (numBatches c) r plots g (e * numBatches c)) =
        NNTrain.outer (given c (drawnPerm c.statsStep (numBatches c) r plots g) (drawnLoss c.statsStep (numBatches c) vl r plots g)) (List.range' e n) st := by
  induction n with
  | zero => intro e st _ _; rfl
  | succ n ih =>
    intro e st hk hv
    rw [List.range'_succ, outer, NNTrain.outer]
    have hb : (List.range (numBatches c)).map (batch (r.shuffle (before c.statsStep (numBatches c) r plots g (e * numBatches c))).1 (bs c)) =
        epochBatches (given c (drawnPerm c.statsStep (numBatches c) r plots g) (drawnLoss c.statsStep (numBatches c) vl r plots g)) e := rfl
    rw [hb]
    have hlen : (epochBatches (given c (drawnPerm c.statsStep (numBatches c) r plots g) (drawnLoss c.statsStep (numBatches c) vl r plots g)) e).length = numBatches c := by
      simp [epochBatches, given, numBatches, bs]
    obtain ⟨h1, h2⟩ := inner_eq c vl r plots g (numBatches c) (drawnPerm c.statsStep (numBatches c) r plots g)
      (epochBatches (given c (drawnPerm c.statsStep (numBatches c) r plots g) (drawnLoss c.statsStep (numBatches c) vl r plots g)) e) st
      (r.shuffle (before c.statsStep (numBatches c) r plots g (e * numBatches c))).2 e 0 (by rw [hk]; rfl) (by omega) hv
      (fun _ => by rw [hk, during, if_pos (Nat.mul_mod_left _ _)])
      (fun hn => by rw [hn] at hlen; simp at hlen; omega)
    rw [h1]
    cases hi : NNTrain.inner (given c (drawnPerm c.statsStep (numBatches c) r plots g) (drawnLoss c.statsStep (numBatches c) vl r plots g))
      (epochBatches (given c (drawnPerm c.statsStep (numBatches c) r plots g) (drawnLoss c.statsStep (numBatches c) vl r plots g)) e) st with
    | error e => rfl
    | ok x =>
      obtain ⟨st', t⟩ := x
      cases t with
      | true => rfl
      | false => exact ih (e + 1) st' (h2 st' hi).1 (h2 st' hi).2

theorem outer_none (c : Cfg P O K) (vl : P → List ℕ → Option K) (r : Rng G) (plots : Bool) (hm : numBatches c = 0) (q : ℕ → List ℕ) (l : ℕ → P → Option K) (n : ℕ) :
    ∀ (e : ℕ) (st : St P O K) (g : G), outer c vl r plots n st g = .ok (st, false) ∧ NNTrain.outer (given c q l) (List.range' e n) st = .ok (st, false) := by
  induction n with
  | zero => intro e st g; exact ⟨rfl, rfl⟩
  | succ n ih =>
    intro e st g
    rw [List.range'_succ, outer, NNTrain.outer]
    have hb : epochBatches (given c q l) e = [] := by
      change (List.range (numBatches c)).map _ = []
      rw [hm]; rfl
    rw [hb, hm]
    simp only [List.range_zero, List.map_nil, inner, NNTrain.inner]
    exact ⟨(ih (e + 1) st _).1, (ih (e + 1) st g).2⟩

/-- `fit` with the generator is `fit` with the draws given. -/
theorem fit_eq (c : Cfg P O K) (vl : P → List ℕ → Option K) (r : Rng G) (plots : Bool) (p0 : P) (o0 : O) (self0 : P) (g : G) :
    fit c vl r plots p0 o0 self0 g =
      NNTrain.fit (given c (drawnPerm c.statsStep (numBatches c) r plots g) (drawnLoss c.statsStep (numBatches c) vl r plots g)) p0 o0 self0 := by
  have h : outer c vl r plots c.nEpochs (start p0 o0 self0) g =
      NNTrain.outer (given c (drawnPerm c.statsStep (numBatches c) r plots g) (drawnLoss c.statsStep (numBatches c) vl r plots g))
        (List.range c.nEpochs) (start p0 o0 self0) := by
    rw [List.range_eq_range']
    rcases Nat.eq_zero_or_pos (numBatches c) with h0 | hp
    · have := outer_none c vl r plots h0 (drawnPerm c.statsStep (numBatches c) r plots g) (drawnLoss c.statsStep (numBatches c) vl r plots g)
        c.nEpochs 0 (start p0 o0 self0) g
      rw [this.1, this.2]
    · have := outer_eq c vl r plots g hp c.nEpochs 0 (start p0 o0 self0) (by simp [start]) (by simp [start])
      rw [Nat.zero_mul] at this
      exact this
  unfold fit NNTrain.fit
  rw [h]
  rfl

theorem fit_congr (c : Cfg P O K) (q q' : ℕ → List ℕ) (l l' : ℕ → P → Option K) (p0 : P) (o0 : O) (self0 : P)
    (hq : ∀ e, e < c.nEpochs → 0 < numBatches c → q e = q' e) (hl : ∀ k, k < c.nEpochs * numBatches c → l k = l' k) :
    NNTrain.fit (given c q l) p0 o0 self0 = NNTrain.fit (given c q' l') p0 o0 self0 := by
  have h := outer_congr c q q' l l' c.nEpochs 0 (start p0 o0 self0) (by simp [start]) (fun i _ h => hq i (by omega)) (fun k h => hl k (by simpa using h))
  rw [← List.range_eq_range'] at h
  unfold NNTrain.fit
  change (if bs c = 0 then _ else match NNTrain.outer (given c q l) (List.range c.nEpochs) (start p0 o0 self0) with | .error e => _ | .ok (st, fin) => _) = _
  rw [h]
  rfl

end PyF.NNSeed
