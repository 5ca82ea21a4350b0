import Verif.NNTrain.Props

namespace PyF.NNTrain

open PyF

variable {P O K : Type} [Field K] [LinearOrder K] [IsStrictOrderedRing K]

theorem le_of_not_relLess {tol prev cur : K} (ht : 0 < tol) (h : relLess tol prev cur = false) : cur ≤ prev := by
  unfold relLess at h
  by_cases hd : |prev + 1 / 1000000| = 0
  · rw [if_pos hd] at h
    have := of_decide_eq_false h
    linarith [not_lt.1 this]
  · rw [if_neg hd] at h
    have h1 := not_lt.1 (of_decide_eq_false h)
    have hpos : 0 < |prev + 1 / 1000000| := lt_of_le_of_ne (abs_nonneg _) (Ne.symm hd)
    have h2 : 0 < (prev - cur) / |prev + 1 / 1000000| := lt_of_lt_of_le ht h1
    have h3 := (div_pos_iff_of_pos_right hpos).1 h2
    linarith

omit [Field K] [IsStrictOrderedRing K] in
theorem argMin_zero {v : K} {l : List K} (h : ∀ w ∈ l, v ≤ w) : argMin (v :: l) = 0 := by
  unfold argMin
  rw [if_pos h]

/-- Recorded losses never rise until the loop stops. -/
def Down (st : St P O K) (fin : Bool) : Prop :=
  (fin = false ∧ (st.val.length ≤ 1 ∨ ∃ vs : List K, st.val = vs.map some ∧ vs.Pairwise (· ≤ ·))) ∨
  (fin = true ∧ ∃ (cur prev : K) (rest : List K), st.val = (cur :: prev :: rest).map some ∧ (prev :: rest).Pairwise (· ≤ ·))

omit [Field K] [IsStrictOrderedRing K] in
theorem tail_down {st : St P O K} {cur prev : K} {rest : List K} {v : Option K} (h : st.val.length ≤ 1 ∨ ∃ vs : List K, st.val = vs.map some ∧ vs.Pairwise (· ≤ ·))
    (hv : v :: st.val = (cur :: prev :: rest).map some) : (prev :: rest).Pairwise (· ≤ ·) := by
  have h2 : st.val = (prev :: rest).map some := (List.cons.inj hv).2
  rcases h with h | ⟨vs, h1, hp⟩
  · rw [h2] at h
    simp at h
    subst h
    simp
  · rw [h2] at h1
    have := List.map_injective_iff.2 (Option.some_injective K) h1
    rw [this]
    exact hp

theorem down_body {c : Cfg P O K} (ht : 0 < c.relTol) {st st' : St P O K} {r : List ℕ} {b : Bool} (h : Down st false) (hb : body c st r = .ok (st', b)) : Down st' b := by
  have h' : st.val.length ≤ 1 ∨ ∃ vs : List K, st.val = vs.map some ∧ vs.Pairwise (· ≤ ·) := by
    rcases h with ⟨_, h⟩ | ⟨hf, _⟩
    · exact h
    · cases hf
  have hv : (evald c st r).val = c.loss st.k (c.step st.pars st.opt r).1 :: st.val := rfl
  have key : ∀ t, decideStop c st.k (evald c st r).val = .ok t → 2 ≤ (evald c st r).val.length →
      ∃ (cur prev : K) (rest : List K), (evald c st r).val = (cur :: prev :: rest).map some ∧ (t = false → cur ≤ prev) := by
    intro t hd hl
    unfold decideStop at hd
    cases ha : allSome (evald c st r).val with
    | none => rw [ha] at hd; cases hd
    | some vs =>
      have hvs := (allSome_iff _ _).1 ha
      rw [ha] at hd
      match vs, hvs with
      | [], hvs => rw [hvs] at hl; simp at hl
      | [_], hvs => rw [hvs] at hl; simp at hl
      | cur :: prev :: rest, hvs =>
        simp only [Except.ok.injEq] at hd
        refine ⟨cur, prev, rest, hvs, ?_⟩
        intro hf
        rw [hf, Bool.or_eq_false_iff] at hd
        exact le_of_not_relLess ht hd.1
  obtain ⟨_, ⟨_, rfl, rfl⟩ | ⟨_, ⟨rfl, rfl, hl, h2⟩ | ⟨rfl, rfl, h2⟩⟩⟩ := body_cases hb
  · exact Or.inl ⟨rfl, h'⟩
  · right
    obtain ⟨cur, prev, rest, hval, _⟩ := key true h2 hl
    exact ⟨rfl, cur, prev, rest, hval, tail_down h' (hv ▸ hval)⟩
  · left
    refine ⟨rfl, ?_⟩
    show (evald c st r).val.length ≤ 1 ∨ ∃ vs : List K, (evald c st r).val = vs.map some ∧ vs.Pairwise (· ≤ ·)
    by_cases hl : 2 ≤ (evald c st r).val.length
    · right
      rcases h2 with h2 | h2
      · omega
      · obtain ⟨cur, prev, rest, hval, hle⟩ := key false h2 hl
        have ht := tail_down h' (hv ▸ hval)
        refine ⟨cur :: prev :: rest, hval, ?_⟩
        rw [List.pairwise_cons]
        refine ⟨?_, ht⟩
        intro w hw
        rcases List.mem_cons.1 hw with rfl | hw
        · exact hle rfl
        · exact (hle rfl).trans ((List.pairwise_cons.1 ht).1 w hw)
    · left; omega

/-- **C68.** With a positive tolerance, early stopping returns parameters with the least validation loss recorded. -/
theorem C68_best (c : Cfg P O K) (ht : 0 < c.relTol) (p0 : P) (o0 : O) (self0 : P) (st : St P O K) (p : P) (h : fit c p0 o0 self0 = .ok (st, true, p)) :
    ∃ e ∈ st.evals, p = e.pars ∧ ∃ a, e.loss = some a ∧ ∀ e' ∈ st.evals, ∃ b, e'.loss = some b ∧ a ≤ b := by
  obtain ⟨_, ho, _⟩ := fit_ok h
  have hi := inv_outer ho
  have hr := C68_result c p0 o0 self0 st true p h
  have hd : Down st true := outer_inv Down (fun _ _ _ _ hq hb => down_body ht hq hb) _ _ _ _ (Or.inl ⟨rfl, Or.inl (by simp [start])⟩) ho
  rcases hd with ⟨hf, _⟩ | ⟨_, cur, prev, rest, hval, hpw⟩
  · cases hf
  obtain ⟨e, e', l, hev, hpar⟩ := hr.2.2 rfl
  have hmap : st.evals.map Eval.loss = (cur :: prev :: rest).map some := by rw [← hi.val, hval]
  have hmap' := hmap
  rw [hev] at hmap'
  simp only [List.map_cons, List.cons.injEq] at hmap'
  obtain ⟨hc, hp, _⟩ := hmap'
  have hb := hr.2.1 e e' l hev cur prev hc hp
  have hall : ∀ x ∈ st.evals, ∃ b, x.loss = some b ∧ b ∈ cur :: prev :: rest := by
    intro x hx
    have : x.loss ∈ (cur :: prev :: rest).map some := by rw [← hmap]; exact List.mem_map_of_mem hx
    obtain ⟨b, hb, hbx⟩ := List.mem_map.1 this
    exact ⟨b, hbx.symm, hb⟩
  have hprev := (List.pairwise_cons.1 hpw).1
  by_cases hlt : prev < cur
  · refine ⟨e', by rw [hev]; simp, hb.1 hlt, prev, hp, ?_⟩
    intro x hx
    obtain ⟨b, h1, h2⟩ := hall x hx
    refine ⟨b, h1, ?_⟩
    rcases List.mem_cons.1 h2 with rfl | h2
    · exact hlt.le
    · rcases List.mem_cons.1 h2 with rfl | h2
      · exact le_rfl
      · exact hprev b h2
  · have hle := not_lt.1 hlt
    refine ⟨e, by rw [hev]; simp, by rw [hb.2 hle, hpar], cur, hc, ?_⟩
    intro x hx
    obtain ⟨b, h1, h2⟩ := hall x hx
    refine ⟨b, h1, ?_⟩
    rcases List.mem_cons.1 h2 with rfl | h2
    · exact le_rfl
    · rcases List.mem_cons.1 h2 with rfl | h2
      · exact hle
      · exact hle.trans (hprev b h2)

/-- **C68.** With a positive tolerance and no early stop the recorded losses never rose, and the parameters kept are those after the last batch, which were
not validated unless the last counter was an evaluation. -/
theorem C68_exhausted (c : Cfg P O K) (ht : 0 < c.relTol) (p0 : P) (o0 : O) (self0 : P) (st : St P O K) (p : P) (h : fit c p0 o0 self0 = .ok (st, false, p)) :
    p = (trained c p0 o0 ((List.range c.nEpochs).flatMap (epochBatches c))).1 ∧
    ∀ e e' l a b, st.evals = e :: e' :: l → e.loss = some a → e'.loss = some b → a ≤ b := by
  obtain ⟨_, ho, _⟩ := fit_ok h
  have hi := inv_outer ho
  have hr := C68_result c p0 o0 self0 st false p h
  have hs := C68_steps c p0 o0 self0 st false p h
  have hd : Down st false := outer_inv Down (fun _ _ _ _ hq hb => down_body ht hq hb) _ _ _ _ (Or.inl ⟨rfl, Or.inl (by simp [start])⟩) ho
  have hdown : ∀ e e' l a b, st.evals = e :: e' :: l → e.loss = some a → e'.loss = some b → a ≤ b := by
    intro e e' l a b hev ha hb
    rcases hd with ⟨_, hl | ⟨vs, hv, hp⟩⟩ | ⟨hf, _⟩
    · rw [hi.val, hev] at hl; simp at hl
    · rw [hi.val, hev] at hv
      match vs, hv, hp with
      | [], hv, _ => simp at hv
      | [_], hv, _ => simp at hv
      | x :: y :: ws, hv, hp =>
        simp only [List.map_cons, List.cons.injEq] at hv
        rw [ha] at hv
        rw [hb] at hv
        obtain ⟨h1, h2, _⟩ := hv
        cases h1; cases h2
        exact (List.pairwise_cons.1 hp).1 _ List.mem_cons_self
    · cases hf
  refine ⟨?_, hdown⟩
  rw [← hs.2.1 rfl, ← hs.2.2.2]
  match hev : st.evals with
  | [] => exact hr.1 (by rw [hev]; simp)
  | [e] => exact hr.1 (by rw [hev]; simp)
  | e :: e' :: l =>
    have hnn := C118_nan_free c p0 o0 self0 st false p h
    rcases hnn with hnn | hnn
    · rw [hev] at hnn; simp at hnn
    · rw [hev] at hnn
      cases ha : e.loss with
      | none => exact absurd ha (hnn e List.mem_cons_self)
      | some a =>
        cases hb : e'.loss with
        | none => exact absurd hb (hnn e' (List.mem_cons_of_mem _ List.mem_cons_self))
        | some b => exact (hr.2.1 e e' l hev a b ha hb).2 (hdown e e' l a b hev ha hb)

/-! ### stopping_rounds -/

/-- The same configuration with another `stopping_rounds`. -/
def withRounds (c : Cfg P O K) (s : ℤ) : Cfg P O K := { c with stoppingRounds := s }

theorem decideStop_rounds (c : Cfg P O K) (ht : 0 < c.relTol) (s s' : ℤ) (hs : 0 ≤ s) (hs' : 0 ≤ s') (k : ℕ) (st : St P O K) (v : Option K)
    (hd : st.val.length ≤ 1 ∨ ∃ vs : List K, st.val = vs.map some ∧ vs.Pairwise (· ≤ ·)) (hk : k / c.statsStep = st.val.length + 1) :
    decideStop (withRounds c s) k (v :: st.val) = decideStop (withRounds c s') k (v :: st.val) := by
  unfold decideStop
  cases ha : allSome (v :: st.val) with
  | none => rfl
  | some vs =>
    have hv := (allSome_iff _ _).1 ha
    match vs, hv with
    | [], _ => rfl
    | [_], _ => rfl
    | cur :: prev :: rest, hv =>
      simp only [withRounds]
      by_cases hr : relLess c.relTol prev cur = true
      · simp [hr]
      · have hr' : relLess c.relTol prev cur = false := by simpa using hr
        have hle := le_of_not_relLess ht hr'
        have hpw := tail_down hd hv
        have hmin : argMin (cur :: prev :: rest) = 0 := by
          apply argMin_zero
          intro w hw
          rcases List.mem_cons.1 hw with rfl | hw
          · exact hle
          · exact hle.trans ((List.pairwise_cons.1 hpw).1 w hw)
        have hlen : st.val.length + 1 = (cur :: prev :: rest).length := by
          have := congrArg List.length hv
          simpa using this
        have hz : ∀ z : ℤ, 0 ≤ z → ¬ (((k / c.statsStep : ℕ) : ℤ) - (((cur :: prev :: rest).length : ℤ) - (argMin (cur :: prev :: rest) : ℤ)) > z) := by
          intro z hz
          rw [hmin, hk, hlen]
          push_cast
          omega
        simp only [hr', Bool.false_or]
        congr 1
        rw [Bool.eq_iff_iff, Bool.and_eq_true, Bool.and_eq_true]
        exact ⟨fun h => absurd (of_decide_eq_true h.2) (hz s hs), fun h => absurd (of_decide_eq_true h.2) (hz s' hs')⟩

theorem body_rounds (c : Cfg P O K) (ht : 0 < c.relTol) (s s' : ℤ) (hs : 0 ≤ s) (hs' : 0 ≤ s') (p0 : P) (o0 : O) (st : St P O K)
    (hi : Inv (withRounds c s) p0 o0 st false) (hd : Down st false) (r : List ℕ) : body (withRounds c s) st r = body (withRounds c s') st r := by
  have h' : st.val.length ≤ 1 ∨ ∃ vs : List K, st.val = vs.map some ∧ vs.Pairwise (· ≤ ·) := by
    rcases hd with ⟨_, h⟩ | ⟨hf, _⟩
    · exact h
    · cases hf
  have hl := hi.evals_len
  have hvl : st.val.length = st.evals.length := by rw [hi.val]; simp
  unfold body
  by_cases h0 : c.statsStep = 0
  · have e1 : (withRounds c s).statsStep = 0 := h0
    have e2 : (withRounds c s').statsStep = 0 := h0
    rw [if_pos e1, if_pos e2]
  have e1 : ¬ (withRounds c s).statsStep = 0 := h0
  have e2 : ¬ (withRounds c s').statsStep = 0 := h0
  rw [if_neg e1, if_neg e2]
  by_cases hk : st.k % c.statsStep = 0 ∧ 0 < st.k
  · have k1 : st.k % (withRounds c s).statsStep = 0 ∧ 0 < st.k := hk
    have k2 : st.k % (withRounds c s').statsStep = 0 ∧ 0 < st.k := hk
    rw [if_pos k1, if_pos k2]
    have hdiv : st.k / c.statsStep = st.val.length + 1 := by
      rw [hvl, hl]
      exact div_step h0 hk
    have hds := decideStop_rounds c ht s s' hs hs' st.k st (c.loss st.k (c.step st.pars st.opt r).1) h' hdiv
    have hrec : record (withRounds c s) st ((withRounds c s).step st.pars st.opt r).1 ((withRounds c s).step st.pars st.opt r).2 r
        = record (withRounds c s') st ((withRounds c s').step st.pars st.opt r).1 ((withRounds c s').step st.pars st.opt r).2 r := rfl
    have hval : (record (withRounds c s') st ((withRounds c s').step st.pars st.opt r).1 ((withRounds c s').step st.pars st.opt r).2 r).val
        = c.loss st.k (c.step st.pars st.opt r).1 :: st.val := rfl
    rw [hrec, hval, hds]
  · have k1 : ¬ (st.k % (withRounds c s).statsStep = 0 ∧ 0 < st.k) := hk
    have k2 : ¬ (st.k % (withRounds c s').statsStep = 0 ∧ 0 < st.k) := hk
    rw [if_neg k1, if_neg k2]
    rfl

theorem inner_rounds (c : Cfg P O K) (ht : 0 < c.relTol) (s s' : ℤ) (hs : 0 ≤ s) (hs' : 0 ≤ s') (p0 : P) (o0 : O) (bsl : List (List ℕ)) (st : St P O K)
    (hi : Inv (withRounds c s) p0 o0 st false) (hd : Down st false) : inner (withRounds c s) bsl st = inner (withRounds c s') bsl st := by
  induction bsl generalizing st with
  | nil => rfl
  | cons r rs ih =>
    unfold inner
    rw [← body_rounds c ht s s' hs hs' p0 o0 st hi hd r]
    cases hb : body (withRounds c s) st r with
    | error e => rfl
    | ok q =>
      obtain ⟨st1, b1⟩ := q
      cases b1 with
      | true => rfl
      | false => exact ih st1 (inv_body hi hb) (down_body (c := withRounds c s) ht hd hb)

theorem outer_rounds (c : Cfg P O K) (ht : 0 < c.relTol) (s s' : ℤ) (hs : 0 ≤ s) (hs' : 0 ≤ s') (p0 : P) (o0 : O) (es : List ℕ) (st : St P O K)
    (hi : Inv (withRounds c s) p0 o0 st false) (hd : Down st false) : outer (withRounds c s) es st = outer (withRounds c s') es st := by
  induction es generalizing st with
  | nil => rfl
  | cons e es ih =>
    unfold outer
    have heb : epochBatches (withRounds c s') e = epochBatches (withRounds c s) e := rfl
    rw [heb, ← inner_rounds c ht s s' hs hs' p0 o0 _ st hi hd]
    cases hb : inner (withRounds c s) (epochBatches (withRounds c s) e) st with
    | error e => rfl
    | ok q =>
      obtain ⟨st1, b1⟩ := q
      cases b1 with
      | true => rfl
      | false =>
        exact ih st1 (inner_inv (Inv (withRounds c s) p0 o0) (fun _ _ _ _ h hb => inv_body h hb) _ _ _ _ hi hb)
          (inner_inv Down (fun _ _ _ _ h hb => down_body (c := withRounds c s) ht h hb) _ _ _ _ hd hb)

/-- **C120.** Defect: with a positive tolerance `stopping_rounds` has no effect: any two non-negative values give the same training run. -/
theorem C120_stopping_rounds_dead (c : Cfg P O K) (ht : 0 < c.relTol) (s s' : ℤ) (hs : 0 ≤ s) (hs' : 0 ≤ s') (p0 : P) (o0 : O) (self0 : P) :
    fit (withRounds c s) p0 o0 self0 = fit (withRounds c s') p0 o0 self0 := by
  unfold fit
  have h1 : bs (withRounds c s') = bs (withRounds c s) := rfl
  have h2 : (withRounds c s').nEpochs = (withRounds c s).nEpochs := rfl
  rw [h1, h2, outer_rounds c ht s s' hs hs' p0 o0 _ _ (inv_start _ _ _ _) (Or.inl ⟨rfl, Or.inl (by simp [start])⟩)]

/-- **C120.** With a positive tolerance training stops at the first evaluation whose loss is not below the one before. -/
theorem C120_first_rise_stops (tol prev cur : K) (ht : 0 < tol) (h : prev ≤ cur) (hp : prev + 1 / 1000000 ≠ 0) : relLess tol prev cur = true := by
  by_contra hr
  unfold relLess at hr
  rw [if_neg (by simpa using hp)] at hr
  have h1 := not_lt.1 (of_decide_eq_false (by simpa using hr) : ¬ (prev - cur) / |prev + 1 / 1000000| < tol)
  have hpos : 0 < |prev + 1 / 1000000| := abs_pos.2 hp
  have h2 : (prev - cur) / |prev + 1 / 1000000| ≤ 0 := div_nonpos_of_nonpos_of_nonneg (by linarith) hpos.le
  linarith

end PyF.NNTrain
