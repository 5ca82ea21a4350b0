import Verif.Prune.Model
import Mathlib.Tactic.Linarith
import Mathlib.Tactic.Tauto
import Mathlib.Data.List.Forall2

namespace PyF.Prune
open PyF.Names PyF.Transform

variable {C : Type}

/-! ### Specification -/

/-- The rule of the method alone. -/
def MethodAllows (tgt m : Meta) : Method → Prop
  | .periodic p tol => (∃ k r, tgt.start - m.start = k * p + r ∧ 0 ≤ r ∧ r < p ∧ r ≤ tol) ∨
      (∃ k r, tgt.stop - m.stop = k * p + r ∧ 0 ≤ r ∧ r < p ∧ r ≤ tol)
  | .upTo => m.stop ≤ tgt.stop
  | .other => True

/-- The user-facing rule for one feature. -/
def Allowed (meth : Method) (nLags secs : Int) (tgt m : Meta) : Prop :=
  MethodAllows tgt m meth ∨
  (∃ l, m.lag = some l ∧ 0 ≤ l ∧ l < nLags) ∨
  (0 < secs ∧ m.stop ≤ secs * 1000000000 ∧ m.stop ≤ tgt.stop)

def PeriodPos : Method → Prop
  | .periodic p _ => 0 < p
  | _ => True

/-! ### Lemmas -/

theorem emod_le_iff (x p tol : Int) (hp : 0 < p) : x % p ≤ tol ↔ ∃ k r, x = k * p + r ∧ 0 ≤ r ∧ r < p ∧ r ≤ tol := by
  constructor
  · intro h
    refine ⟨x / p, x % p, ?_, Int.emod_nonneg x (by omega), Int.emod_lt_of_pos x hp, h⟩
    have := Int.mul_ediv_add_emod x p
    rw [mul_comm]; omega
  · rintro ⟨k, r, rfl, h0, h1, h2⟩
    rw [add_comm, Int.add_mul_emod_self_right, Int.emod_eq_of_lt h0 h1]
    exact h2

theorem keepRow_iff (meth : Method) (nLags secs : Int) (tgt m : Meta) (hp : PeriodPos meth) :
    keepRow meth nLags secs tgt m = true ↔ Allowed meth nLags secs tgt m := by
  have h0 : keep0 meth tgt m = true ↔ MethodAllows tgt m meth := by
    cases meth with
    | periodic p tol => simp only [keep0, MethodAllows, Bool.or_eq_true, decide_eq_true_eq, emod_le_iff _ p tol hp]
    | upTo => simp [keep0, MethodAllows]
    | other => simp [keep0, MethodAllows]
  have h1 : lagIn nLags m = true ↔ ∃ l, m.lag = some l ∧ 0 ≤ l ∧ l < nLags := by
    unfold lagIn
    cases m.lag with
    | none => simp
    | some l => simp
  unfold Allowed
  rw [← h0, ← h1]
  unfold keepRow
  simp only
  by_cases hn : nLags > 0
  · rw [if_pos hn]
    by_cases hs : secs > 0
    · rw [if_pos hs]
      simp only [Bool.or_self, Bool.or_eq_true, Bool.and_eq_true, decide_eq_true_eq]
      tauto
    · rw [if_neg hs]
      simp only [Bool.or_eq_true]
      constructor
      · rintro (h | h)
        · exact Or.inl h
        · exact Or.inr (Or.inl h)
      · rintro (h | h | h)
        · exact Or.inl h
        · exact Or.inr h
        · omega
  · rw [if_neg hn]
    have hno : ¬ lagIn nLags m = true := by rw [h1]; rintro ⟨l, -, h2, h3⟩; omega
    by_cases hs : secs > 0
    · rw [if_pos hs]
      simp only [Bool.or_self, Bool.or_eq_true, Bool.and_eq_true, decide_eq_true_eq]
      tauto
    · rw [if_neg hs]
      constructor
      · exact Or.inl
      · rintro (h | h | h)
        · exact h
        · exact absurd h hno
        · omega

theorem select_ok {df : List (Str × C)} {cs : List Str} {out : List (Str × C)} (h : select df cs = .ok out) :
    out.map Prod.fst = cs ∧ ∀ p ∈ out, p ∈ df := by
  induction cs generalizing out with
  | nil => simp only [select, Except.ok.injEq] at h; subst h; simp
  | cons c cs ih =>
    unfold select at h
    cases h1 : getCol df c with
    | none => rw [h1] at h; cases h
    | some p =>
      rw [h1] at h
      cases h2 : select df cs with
      | error e => rw [h2] at h; cases h
      | ok r =>
        rw [h2] at h
        injection h with h
        subst h
        obtain ⟨i1, i2⟩ := ih h2
        have hp := List.find?_some h1
        have hmem := List.mem_of_find?_eq_some h1
        refine ⟨by simp [i1, of_decide_eq_true hp], ?_⟩
        intro q hq
        rcases List.mem_cons.1 hq with rfl | hq
        · exact hmem
        · exact i2 q hq

theorem select_isOk (df : List (Str × C)) (cs : List Str) :
    (∃ out, select df cs = .ok out) ↔ ∀ c ∈ cs, ∃ v, (c, v) ∈ df := by
  induction cs with
  | nil => simp [select]
  | cons c cs ih =>
    unfold select
    cases h1 : getCol df c with
    | none =>
      simp only [List.mem_cons, forall_eq_or_imp]
      constructor
      · rintro ⟨_, h⟩; cases h
      · rintro ⟨⟨v, hv⟩, -⟩
        exact absurd (List.find?_eq_none.1 h1 _ hv) (by simp)
    | some p =>
      have hp : ∃ v, (c, v) ∈ df := by
        have h4 := List.find?_some h1
        have h3 : p.1 = c := of_decide_eq_true h4
        exact ⟨p.2, by rw [← h3]; exact List.mem_of_find?_eq_some h1⟩
      simp only [List.mem_cons, forall_eq_or_imp]
      rw [← ih]
      constructor
      · rintro ⟨o, h⟩
        refine ⟨hp, ?_⟩
        cases h2 : select df cs with
        | error e => rw [h2] at h; cases h
        | ok r => exact ⟨r, rfl⟩
      · rintro ⟨-, r, h2⟩
        rw [h2]
        exact ⟨_, rfl⟩

theorem targetRows_ok (k : Nat) (targets : List (List Meta)) :
    (∃ r, targetRows k targets = .ok r) ↔ ∀ ms ∈ targets, k < ms.length := by
  induction targets with
  | nil => simp [targetRows]
  | cons ms rest ih =>
    unfold targetRows
    simp only [List.mem_cons, forall_eq_or_imp]
    cases h : ms[k]? with
    | none =>
      have := List.getElem?_eq_none_iff.1 h
      constructor
      · rintro ⟨_, h⟩; cases h
      · rintro ⟨h, -⟩; omega
    | some m =>
      have hk : k < ms.length := (List.getElem?_eq_some_iff.1 h).1
      simp only [hk, true_and]
      rw [← ih]
      constructor
      · rintro ⟨_, h⟩
        cases h2 : targetRows k rest with
        | error e => rw [h2] at h; cases h
        | ok r => exact ⟨r, rfl⟩
      · rintro ⟨r, h2⟩
        rw [h2]
        exact ⟨_, rfl⟩

theorem targetRows_head {k : Nat} {ms : List Meta} {rest : List (List Meta)} {tgt : Meta} {r : List Meta}
    (h : targetRows k (ms :: rest) = .ok (tgt :: r)) : ms[k]? = some tgt := by
  unfold targetRows at h
  cases h1 : ms[k]? with
  | none => rw [h1] at h; cases h
  | some m =>
    rw [h1] at h
    cases h2 : targetRows k rest with
    | error e => rw [h2] at h; cases h
    | ok r' =>
      rw [h2] at h
      injection h with h
      injection h with h _
      rw [h]

/-! ### C29 -/

/-- C29: the pruned frame has exactly the allowed features, in metadata order, followed by the `metadata_features`;
every returned column is a column of the input frame, values untouched. The target window is that of column `k` of the
first target transformer. -/
theorem C29_keeps_exactly_allowed (df : List (Str × C)) (ms : List Meta) (rest feats : List (List Meta)) (k : Nat)
    (mf : List Str) (meth : Method) (nLags secs : Int) (hp : PeriodPos meth) (out : List (Str × C))
    (h : prune df (ms :: rest) feats k mf meth nLags secs = .ok out) :
    ∃ (tgt : Meta) (kept : List Meta), ms[k]? = some tgt ∧ kept.Sublist feats.flatten ∧
      (∀ m ∈ kept, Allowed meth nLags secs tgt m) ∧
      (∀ l : List Meta, l.Sublist feats.flatten → (∀ m ∈ l, Allowed meth nLags secs tgt m) → l.Sublist kept) ∧
      out.map Prod.fst = kept.map Meta.col ++ mf ∧ ∀ p ∈ out, p ∈ df := by
  unfold prune at h
  cases h1 : targetRows k (ms :: rest) with
  | error e => rw [h1] at h; cases h
  | ok r =>
    rw [h1] at h
    cases r with
    | nil => cases h
    | cons tgt r =>
      simp only at h
      split at h
      · cases h
      · obtain ⟨s1, s2⟩ := select_ok h
        refine ⟨tgt, feats.flatten.filter (keepRow meth nLags secs tgt), targetRows_head h1, List.filter_sublist, ?_, ?_, s1, s2⟩
        · intro m hm
          exact (keepRow_iff meth nLags secs tgt m hp).1 (List.mem_filter.1 hm).2
        · intro l hl ha
          have := hl.filter (keepRow meth nLags secs tgt)
          rw [List.filter_eq_self.2 (fun m hm => (keepRow_iff meth nLags secs tgt m hp).2 (ha m hm))] at this
          exact this

/-- C29 (acceptance): pruning raises nothing iff there is a feature transformer, every target transformer (not only the
first) has more than `k` columns, and all allowed features and `metadata_features` are columns of the frame. -/
theorem C29_accepts_iff (df : List (Str × C)) (ms : List Meta) (rest feats : List (List Meta)) (k : Nat)
    (mf : List Str) (meth : Method) (nLags secs : Int) (hp : PeriodPos meth) :
    (∃ out, prune df (ms :: rest) feats k mf meth nLags secs = .ok out) ↔
      feats ≠ [] ∧ (∀ t ∈ ms :: rest, k < t.length) ∧
      (∀ tgt, ms[k]? = some tgt → ∀ m ∈ feats.flatten, Allowed meth nLags secs tgt m → ∃ v, (m.col, v) ∈ df) ∧
      ∀ c ∈ mf, ∃ v, (c, v) ∈ df := by
  rw [← targetRows_ok]
  unfold prune
  cases h1 : targetRows k (ms :: rest) with
  | error e =>
    constructor
    · rintro ⟨_, h⟩; cases h
    · rintro ⟨-, ⟨_, h⟩, -⟩; cases h
  | ok r =>
    cases r with
    | nil =>
      exfalso
      unfold targetRows at h1
      cases h2 : ms[k]? with
      | none => rw [h2] at h1; cases h1
      | some m =>
        rw [h2] at h1
        cases h3 : targetRows k rest with
        | error e => rw [h3] at h1; cases h1
        | ok r => rw [h3] at h1; injection h1 with h1; cases h1
    | cons tgt r =>
      have htgt := targetRows_head h1
      simp only
      by_cases hf : feats = []
      · rw [if_pos hf]
        constructor
        · rintro ⟨_, h⟩; cases h
        · rintro ⟨h, -⟩; exact absurd hf h
      · rw [if_neg hf, select_isOk]
        simp only [List.mem_append, List.mem_map, List.mem_filter]
        constructor
        · intro h
          refine ⟨hf, ⟨_, rfl⟩, ?_, fun c hc => h c (Or.inr hc)⟩
          intro t ht m hm ha
          rw [htgt] at ht
          obtain rfl := Option.some.inj ht
          exact h m.col (Or.inl ⟨m, ⟨hm, (keepRow_iff meth nLags secs tgt m hp).2 ha⟩, rfl⟩)
        · rintro ⟨-, -, h1, h2⟩ c (⟨m, ⟨hm, hk⟩, rfl⟩ | hc)
          · exact h1 tgt htgt m hm ((keepRow_iff meth nLags secs tgt m hp).1 hk)
          · exact h2 c hc

/-- C29 ('up_to' is causal): with method 'up_to' and no `keep_last_n_lags`, no kept feature ends after the target. -/
theorem C29_up_to_never_past_target (nLags secs : Int) (hn : nLags ≤ 0) (tgt m : Meta)
    (h : Allowed .upTo nLags secs tgt m) : m.stop ≤ tgt.stop := by
  rcases h with h | ⟨l, -, h1, h2⟩ | h
  · exact h
  · omega
  · exact h.2.2

/-- C29 (defect of 'periodic'): the causality condition is not applied, so a feature that begins after the end of the
target window is kept whenever it is an exact multiple of the period later. -/
theorem C29_periodic_keeps_the_future (p tol : Int) (hp : 0 < p) (htol : 0 ≤ tol) (nLags secs : Int) (tgt m : Meta)
    (k : Int) (h : m.start = tgt.start + k * p) : Allowed (.periodic p tol) nLags secs tgt m :=
  Or.inl (Or.inl ⟨-k, 0, by rw [h]; ring_nf, le_refl _, hp, htol⟩)

/-- C29 (defect of 'periodic'): the tolerance is one sided. A feature ending and starting `ε` later than a multiple of
the period before the target is dropped for every `0 < ε < period - tol`, although one `ε ≤ tol` earlier is kept. -/
theorem C29_periodic_one_sided (p tol ε : Int) (h0 : 0 < ε) (hε : ε < p - tol) (tgt m : Meta) (k : Int)
    (hs : m.start = tgt.start - k * p + ε) (he : m.stop = tgt.stop - k * p + ε) (nLags : Int) (hn : nLags ≤ 0) :
    ¬ Allowed (.periodic p tol) nLags 0 tgt m := by
  have key : ∀ x : Int, x = k * p - ε → ¬ ∃ j r, x = j * p + r ∧ 0 ≤ r ∧ r < p ∧ r ≤ tol := by
    rintro x hx ⟨j, r, h1, h2, h3, h4⟩
    have h5 : (k - j) * p = r + ε := by rw [sub_mul]; omega
    have h6 : 0 < (k - j) * p := by omega
    have hp : 0 < p := by omega
    have h7 : 0 < k - j := by
      by_contra hc
      have : (k - j) * p ≤ 0 := mul_nonpos_of_nonpos_of_nonneg (by omega) (by omega)
      omega
    have h8 : p ≤ (k - j) * p := by
      calc p = 1 * p := (one_mul p).symm
        _ ≤ (k - j) * p := mul_le_mul_of_nonneg_right (by omega) (by omega)
    omega
  rintro ((h | h) | ⟨l, -, h1, h2⟩ | h)
  · exact key _ (by omega) h
  · exact key _ (by omega) h
  · omega
  · omega

/-- C29 (defect of `keep_last_seconds`): it is meant to keep the features of the last seconds, but any positive value
keeps every feature of the past, however old. -/
theorem C29_keep_last_seconds_keeps_all_past (meth : Method) (nLags secs : Int) (hs : 0 < secs) (tgt m : Meta)
    (hm : m.stop ≤ 0) (ht : 0 ≤ tgt.stop) : Allowed meth nLags secs tgt m :=
  Or.inr (Or.inr ⟨hs, by omega, by omega⟩)

/-! ### Non-vacuity -/

/-- A feature row. -/
def mk (c : String) (l : Int) (a b : Int) : Meta := { col := c.toList, lag := some l, fn := [], start := a, stop := b, var := [] }

example : ∃ out, prune [("x0".toList, 10), ("x1".toList, 11), ("x2".toList, 12), ("hour".toList, 13)]
      [[mk "t1" (-1) 1 2, mk "t2" (-2) 2 3]] [[mk "x0" 0 0 1, mk "x1" 1 (-1) 0], [mk "x2" (-3) 3 4]] 0 ["hour".toList]
      .upTo 0 0 = .ok out ∧ out = [("x0".toList, 10), ("x1".toList, 11), ("hour".toList, 13)] := by
  refine ⟨_, rfl, ?_⟩
  decide +kernel

example : prune [("x0".toList, 10), ("hour".toList, 13)]
      [[mk "t1" (-1) 1 2, mk "t2" (-2) 2 3], [mk "u1" (-1) 1 2]] [[mk "x0" 0 0 1]] 1 [] .upTo 0 0 = .error .indexError := by rfl

/-- `PeriodPos` and the hypotheses of the one-sided tolerance: target a day ahead, feature half an hour late. -/
example : ¬ Allowed (.periodic 24 1) 0 0 (mk "t" 0 1 2) (mk "x" 23 (1 - 24 + 3) (2 - 24 + 3)) :=
  C29_periodic_one_sided 24 1 3 (by decide) (by decide) _ _ 1 (by decide) (by decide) 0 (by decide)

example : Allowed (.periodic 24 1) 0 0 (mk "t" 0 1 2) (mk "x" (-30) 25 26) :=
  C29_periodic_keeps_the_future 24 1 (by decide) (by decide) 0 0 _ _ 1 (by decide)

end PyF.Prune
