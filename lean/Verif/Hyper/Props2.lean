import Verif.Hyper.Lemmas

namespace PyF.Hyper
open PyF PyF.Params

variable {N V : Type}

/-- C194 (defect): for every class that is not one of the five named in the map, searching the default space fails with ValueError at the first trial, unless the class has a parameter whose name is
literally `model__n_estimators` (no forecaster of the package has). -/
theorem C194_no_default_space (c : Cls String V) (cls : String)
    (hcls : cls ∉ ["LinearForecaster", "LGBForecaster", "LGBMHybrid", "PICNN", "StructuredPICNN"]) (hsig : "model__n_estimators" ∉ c.sig)
    (full : Bool) (folds : ℕ) (score : Obj String V → ℕ → Option ℚ) (draw : ℕ → ℕ) (sampler : List (Trial String V) → List (String × V))
    (hsp : ∀ h, (sampler h).map Prod.fst = spaceNames cls) (n : ℕ) (ob : Obj String V) :
    search c full folds score draw sampler (n + 1) ob = .error .valueError := by
  have hnone : hyperparMap cls = none := by
    simp only [List.mem_cons, List.not_mem_nil, or_false, not_or] at hcls
    unfold hyperparMap
    simp [hcls.1, hcls.2.1, hcls.2.2.1, hcls.2.2.2.1, hcls.2.2.2.2]
  have hmem : "model__n_estimators" ∈ (sampler []).map Prod.fst := by
    rw [hsp]; unfold spaceNames; rw [hnone]; simp [defaultNames]
  have happ : applyTrial c ob (sampler []) = .error .valueError := by
    unfold applyTrial
    rw [if_neg]
    rw [List.all_eq_true]
    intro h
    obtain ⟨⟨k, v⟩, hm, hk⟩ := List.mem_map.1 hmem
    simp only at hk; subst hk
    have := h _ hm
    simp only [decide_eq_true_eq, List.mem_append] at this
    rcases this with h' | h'
    · exact hsig h'
    · obtain ⟨⟨k', v'⟩, hm', hk'⟩ := List.mem_map.1 h'
      simp only at hk'; subst hk'
      exact hsig ((getParams_mem _ _ _ _).1 hm').1
  unfold search study objective
  simp only [happ]

/-- C194 (the mapped classes): the default space of one of the five classes is accepted when its names are in the signature, as they are, and all trials run. -/
theorem C194_mapped_runs (c : Cls String V) (cls : String) (names : List String)
    (hcls : (cls, names) ∈ [("LinearForecaster", ["kind"]), ("LGBForecaster", ["n_estimators", "learning_rate"]), ("LGBMHybrid", ["n_estimators", "learning_rate"]),
      ("PICNN", ["n_layers", "n_hidden_x", "learning_rate"]), ("StructuredPICNN", ["n_layers", "n_hidden_x", "learning_rate"])])
    (hsig : ∀ m ∈ names, m ∈ c.sig) (hacc : ∀ m ∈ c.sig, c.stored m = true → m ∈ c.accepted)
    (full : Bool) (folds : ℕ) (score : Obj String V → ℕ → Option ℚ) (draw : ℕ → ℕ) (sampler : List (Trial String V) → List (String × V))
    (hsp : ∀ h, (sampler h).map Prod.fst = spaceNames cls) (n : ℕ) (kw₀ : List (String × V)) (ob : Obj String V) (hob : construct c kw₀ = .ok ob) :
    ∃ ob' trials, search c full folds score draw sampler n ob = .ok (ob', trials) ∧ trials.length = n := by
  have hnames : spaceNames cls = names := by
    simp only [List.mem_cons, Prod.mk.injEq, List.not_mem_nil, or_false] at hcls
    rcases hcls with ⟨rfl, rfl⟩ | ⟨rfl, rfl⟩ | ⟨rfl, rfl⟩ | ⟨rfl, rfl⟩ | ⟨rfl, rfl⟩ <;> decide +kernel
  have hatt := (construct_inv hob).1
  suffices H : ∀ (n : ℕ) (o : Obj String V) (h : List (Trial String V)), (∀ m, (o.attrs m).isSome = c.stored m) → ∃ ob' trials, study c full folds score draw sampler n o h = .ok (ob', trials) ∧ trials.length = h.length + n by
    obtain ⟨ob', tr, h1, h2⟩ := H n ob [] (by intro m; rw [hatt]; by_cases hs : c.stored m = true <;> simp [hs])
    exact ⟨ob', tr, h1, by simpa using h2⟩
  intro n
  induction n with
  | zero => intro o h _; exact ⟨o, h, rfl, rfl⟩
  | succ n ih =>
    intro o h ho
    have happ : applyTrial c o (sampler h) = .ok (o.setParams (sampler h)) := by
      unfold applyTrial
      rw [if_pos]
      rw [List.all_eq_true]
      intro p hp
      have : p.1 ∈ names := by rw [← hnames, ← hsp h]; exact List.mem_map.2 ⟨p, hp, rfl⟩
      simpa using Or.inl (hsig _ this)
    have ho' : ∀ m, ((o.setParams (sampler h)).attrs m).isSome = c.stored m := by
      intro m; rw [← ho m]; exact setParams_isSome _ _ _
    obtain ⟨cl, hcl, _⟩ := C77_clone_exact c (o.setParams (sampler h)) (by
      intro m hm hs
      rw [ho'] at hs
      exact hacc m hm hs)
    have hobj : ∃ t, objective c full folds score (draw h.length) o (sampler h) = .ok (o.setParams (sampler h), t) := by
      unfold objective
      simp only [happ, hcl]
      cases full
      · exact ⟨_, rfl⟩
      · exact ⟨_, rfl⟩
    obtain ⟨t, ht⟩ := hobj
    obtain ⟨ob', tr, h1, h2⟩ := ih (o.setParams (sampler h)) (h ++ [t]) ho'
    refine ⟨ob', tr, ?_, by rw [h2]; simp; omega⟩
    rw [study, ht]; exact h1

/-! ### Ranks -/

theorem mem_distinct (vals : List (Option ℚ)) (q : ℚ) : q ∈ distinct vals ↔ some q ∈ vals := by
  unfold distinct
  rw [(List.perm_insertionSort (· ≤ ·) _).mem_iff, List.mem_dedup, List.mem_filterMap]
  constructor
  · rintro ⟨a, ha, h⟩; simp only [id] at h; subst h; exact ha
  · intro h; exact ⟨_, h, rfl⟩

theorem distinct_sorted (vals : List (Option ℚ)) : (distinct vals).Pairwise (· < ·) := by
  have h1 : (distinct vals).Pairwise (· ≤ ·) := List.pairwise_insertionSort (· ≤ ·) _
  have h2 : (distinct vals).Nodup := (List.perm_insertionSort (· ≤ ·) _).nodup_iff.2 (List.nodup_dedup _)
  have h3 : (distinct vals).Pairwise (· ≠ ·) := h2
  exact (h1.and h3).imp (fun h => lt_of_le_of_ne h.1 h.2)

theorem idxOf_lt (vals : List (Option ℚ)) (p q : ℚ) (hp : some p ∈ vals) (hq : some q ∈ vals) : (distinct vals).idxOf p < (distinct vals).idxOf q ↔ p < q := by
  have hp' := (mem_distinct vals p).2 hp
  have hq' := (mem_distinct vals q).2 hq
  have lp := List.idxOf_lt_length_iff.2 hp'
  have lq := List.idxOf_lt_length_iff.2 hq'
  have ep := List.getElem_idxOf lp
  have eq := List.getElem_idxOf lq
  have hs := List.pairwise_iff_getElem.1 (distinct_sorted vals)
  constructor
  · intro h
    have := hs _ _ lp lq h
    rwa [ep, eq] at this
  · intro h
    by_contra hc
    rcases Nat.lt_or_ge ((distinct vals).idxOf q) ((distinct vals).idxOf p) with h' | h'
    · have := hs _ _ lq lp h'
      rw [ep, eq] at this
      exact absurd this (not_lt.2 h.le)
    · have he : (distinct vals).idxOf q = (distinct vals).idxOf p := by omega
      have : p = q := by
        have h1 : (distinct vals)[(distinct vals).idxOf p]? = some p := by rw [List.getElem?_eq_getElem lp, ep]
        have h2 : (distinct vals)[(distinct vals).idxOf q]? = some q := by rw [List.getElem?_eq_getElem lq, eq]
        rw [he, h1] at h2
        exact Option.some.inj h2
      exact absurd h (by rw [this]; exact lt_irrefl _)

/-- C195 (order): a trial gets a rank iff its value is not NaN, ranks compare as the values do, and the ranks given are exactly 1 up to the number of distinct values. -/
theorem C195_ranks (vals : List (Option ℚ)) :
    (denseRank vals).length = vals.length ∧
    (∀ i : ℕ, vals[i]? = some none ↔ (denseRank vals)[i]? = some none) ∧
    (∀ (i j : ℕ) p q r s, vals[i]? = some (some p) → vals[j]? = some (some q) → (denseRank vals)[i]? = some (some r) → (denseRank vals)[j]? = some (some s) → (r < s ↔ p < q)) ∧
    (∀ r : ℕ, some r ∈ denseRank vals → 1 ≤ r) ∧
    (∀ r s : ℕ, some s ∈ denseRank vals → 1 ≤ r → r ≤ s → some r ∈ denseRank vals) := by
  refine ⟨by simp [denseRank], ?_, ?_, ?_, ?_⟩
  · intro i
    unfold denseRank
    rw [List.getElem?_map]
    cases h : vals[i]? with
    | none => simp
    | some v => cases v <;> simp
  · intro i j p q r s hp hq hr hs
    unfold denseRank at hr hs
    rw [List.getElem?_map, hp] at hr
    rw [List.getElem?_map, hq] at hs
    simp only [Option.map_some, Option.some.injEq] at hr hs
    subst hr hs
    rw [Nat.add_lt_add_iff_right]
    exact idxOf_lt vals p q (List.mem_of_getElem? hp) (List.mem_of_getElem? hq)
  · intro r hr
    unfold denseRank at hr
    obtain ⟨v, _, hv⟩ := List.mem_map.1 hr
    cases v with
    | none => simp at hv
    | some q => simp only [Option.some.injEq] at hv; omega
  · intro r s hs h1 h2
    unfold denseRank at hs
    obtain ⟨v, hv, hvs⟩ := List.mem_map.1 hs
    cases v with
    | none => simp at hvs
    | some q =>
      simp only [Option.some.injEq] at hvs
      have lq := List.idxOf_lt_length_iff.2 ((mem_distinct vals q).2 hv)
      have hr : r - 1 < (distinct vals).length := by omega
      have hm : (distinct vals)[r - 1] ∈ distinct vals := List.getElem_mem hr
      unfold denseRank
      refine List.mem_map.2 ⟨some (distinct vals)[r - 1], (mem_distinct _ _).1 hm, ?_⟩
      simp only [Option.some.injEq]
      have hnd : (distinct vals).Nodup := (distinct_sorted vals).imp (fun h => ne_of_lt h)
      rw [hnd.idxOf_getElem]
      omega

/-- C195 (first): the trials of rank 1 are those of least value; the best trial of the study is one of them. -/
theorem C195_rank_one (vals : List (Option ℚ)) (i : ℕ) (q : ℚ) (hq : vals[i]? = some (some q)) :
    ((denseRank vals)[i]? = some (some 1) ↔ ∀ (j : ℕ) r, vals[j]? = some (some r) → q ≤ r) ∧
    (Spec.Best vals i → (denseRank vals)[i]? = some (some 1)) := by
  have key : (denseRank vals)[i]? = some (some 1) ↔ ∀ (j : ℕ) r, vals[j]? = some (some r) → q ≤ r := by
    have hmem := List.mem_of_getElem? hq
    unfold denseRank
    rw [List.getElem?_map, hq]
    simp only [Option.map_some, Option.some.injEq]
    constructor
    · intro h j r hr
      by_contra hc
      have := (idxOf_lt vals r q (List.mem_of_getElem? hr) hmem).2 (not_le.1 hc)
      omega
    · intro h
      by_contra hc
      have lq := List.idxOf_lt_length_iff.2 ((mem_distinct vals q).2 hmem)
      have h0 : 0 < (distinct vals).length := by omega
      have hm : some (distinct vals)[0] ∈ vals := (mem_distinct _ _).1 (List.getElem_mem h0)
      obtain ⟨j, hj⟩ := List.mem_iff_getElem?.1 hm
      have hle := h j _ hj
      have hs := List.pairwise_iff_getElem.1 (distinct_sorted vals) 0 ((distinct vals).idxOf q) h0 lq (by omega)
      rw [List.getElem_idxOf lq] at hs
      exact absurd hs (not_lt.2 hle)
  refine ⟨key, ?_⟩
  rintro ⟨q', h1, h2, _⟩
  rw [hq] at h1
  simp only [Option.some.injEq] at h1
  subst h1
  exact key.2 h2

/-! ### Spread of the scores -/

theorem sum_sq_zero (l : List ℚ) (m : ℚ) : 0 ≤ (l.map (fun x => (x - m) * (x - m))).sum ∧ ((l.map (fun x => (x - m) * (x - m))).sum = 0 ↔ ∀ x ∈ l, x = m) := by
  induction l with
  | nil => simp
  | cons a l ih =>
    have ha := mul_self_nonneg (a - m)
    rw [List.map_cons, List.sum_cons]
    refine ⟨by linarith [ih.1], ?_⟩
    constructor
    · intro h x hx
      have h1 : (a - m) * (a - m) = 0 := by linarith [ih.1]
      have h2 : (l.map (fun x => (x - m) * (x - m))).sum = 0 := by linarith [ih.1]
      rcases List.mem_cons.1 hx with rfl | hx
      · have := mul_self_eq_zero.1 h1; linarith
      · exact ih.2.1 h2 x hx
    · intro h
      have h1 := h a List.mem_cons_self
      rw [ih.2.2 (fun x hx => h x (List.mem_cons_of_mem _ hx)), h1]
      simp

/-- C195 (spread): the column of spreads exists iff some trial carries fold scores; its entry is NaN iff a fold score is, is never negative, and is 0 iff all fold scores of the trial equal their mean. -/
theorem C195_std (trials : List (Trial N V)) (k : ℕ) (hk : 0 < k) (hl : ∀ t ∈ trials, ∃ l, t.attr = some l ∧ l.length = k) (hne : trials ≠ []) :
    ∃ col, stdColumn trials = .ok (some col) ∧ col.length = trials.length ∧
      ∀ (i : ℕ) t (l : List (Option ℚ)), trials[i]? = some t → t.attr = some l →
        (none ∈ l → col[i]? = some none) ∧
        (∀ q : List ℚ, l = q.map some → ∃ s, col[i]? = some (some s) ∧ 0 ≤ s ∧ s * k = (q.map (fun x => (x - q.sum / k) * (x - q.sum / k))).sum ∧ (s = 0 ↔ ∀ x ∈ q, x = q.sum / k)) := by
  have hfm : ∀ l : List (Trial N V), (∀ t ∈ l, ∃ r, t.attr = some r ∧ r.length = k) → ((l.filterMap (·.attr)).map some = l.map (·.attr) ∧ ∀ r ∈ l.filterMap (·.attr), r.length = k) := by
    intro l
    induction l with
    | nil => intro _; exact ⟨rfl, by simp⟩
    | cons t l ih =>
      intro h
      obtain ⟨r, hr, hrk⟩ := h t List.mem_cons_self
      obtain ⟨i1, i2⟩ := ih (fun t ht => h t (List.mem_cons_of_mem _ ht))
      rw [List.filterMap_cons, hr]
      refine ⟨by simp [i1, hr], ?_⟩
      intro r' hr'
      rcases List.mem_cons.1 hr' with rfl | hr'
      · exact hrk
      · exact i2 r' hr'
  obtain ⟨e1, e2⟩ := hfm trials hl
  have hlen : (trials.filterMap (·.attr)).length = trials.length := by
    have := congrArg List.length e1
    simpa using this
  cases hrows : trials.filterMap (·.attr) with
  | nil =>
    rw [hrows] at hlen
    exact absurd (List.length_eq_zero_iff.1 hlen.symm) hne
  | cons r rs =>
    rw [hrows] at e1 e2 hlen
    refine ⟨(r :: rs).map (fun l => (l.mapM id).map variance), ?_, by simpa using hlen, ?_⟩
    · unfold stdColumn
      simp only [hrows]
      rw [if_pos]
      rw [List.all_eq_true]
      intro r' hr'
      simp [e2 r List.mem_cons_self, e2 r' (List.mem_cons_of_mem _ hr')]
    · intro i t l ht hatt
      have hrow : (r :: rs)[i]? = some l := by
        have := congrArg (fun x => x[i]?) e1
        simp only [List.getElem?_map, ht, Option.map_some, hatt] at this
        cases h : (r :: rs)[i]? with
        | none => rw [h] at this; simp at this
        | some x => rw [h] at this; simpa using this
      have hlk : l.length = k := e2 l (List.mem_of_getElem? hrow)
      rw [List.getElem?_map, hrow, Option.map_some]
      refine ⟨fun h => by rw [mapM_none l h]; rfl, ?_⟩
      intro q hq
      have hqk : q.length = k := by rw [← hlk, hq]; simp
      have hkq : (0 : ℚ) < (k : ℚ) := by exact_mod_cast hk
      have hz := sum_sq_zero q (q.sum / k)
      have hv : variance q = (q.map (fun x => (x - q.sum / k) * (x - q.sum / k))).sum / k := by unfold variance; rw [hqk]
      refine ⟨variance q, by rw [hq, mapM_some]; rfl, ?_, ?_, ?_⟩
      · rw [hv]; exact div_nonneg hz.1 hkq.le
      · rw [hv, div_mul_cancel₀ _ hkq.ne']
      · rw [hv, ← hz.2, div_eq_zero_iff]
        constructor
        · rintro (h | h)
          · exact h
          · exact absurd h hkq.ne'
        · exact Or.inl

/-- C195 (no spread): a search of random folds has no spread column. -/
theorem C195_no_std (trials : List (Trial N V)) (h : ∀ t ∈ trials, t.attr = none) : stdColumn trials = .ok none := by
  have : trials.filterMap (·.attr) = [] := by
    rw [List.filterMap_eq_nil_iff]; exact h
  unfold stdColumn
  rw [this]

end PyF.Hyper
