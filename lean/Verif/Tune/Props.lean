import Verif.Tune.Lemmas
import Verif.Tune.Spec

namespace PyF.Tune

set_option linter.unusedSectionVars false

open PyF

variable {N σ : Type} [DecidableEq N]

/-! ### C152: what is tried, what wins -/

theorem affine_between (u lo hi : ℚ) (h0 : 0 ≤ u) (h1 : u < 1) :
    min lo hi ≤ u * (hi - lo) + lo ∧ u * (hi - lo) + lo ≤ max lo hi ∧ (lo < hi → u * (hi - lo) + lo < hi) := by
  rcases le_total lo hi with h | h
  · rw [min_eq_left h, max_eq_right h]
    refine ⟨by nlinarith, by nlinarith, fun hl => by nlinarith⟩
  · rw [min_eq_right h, max_eq_left h]
    refine ⟨by nlinarith, by nlinarith, fun hl => absurd hl (not_lt.2 h)⟩

theorem sample_inLim (u : ℕ → ℚ) (hu : ∀ j, 0 ≤ u j ∧ u j < 1) (L : Lim) : InLim L (sample u L) := by
  cases L with
  | scalar lo hi => exact affine_between (u 0) lo hi (hu 0).1 (hu 0).2
  | vec l =>
    refine ⟨by simp, fun j p hp => ?_⟩
    refine ⟨u j * (p.2 - p.1) + p.1, ?_, affine_between (u j) p.1 p.2 (hu j).1 (hu j).2⟩
    rw [List.getElem?_map, List.getElem?_zipIdx, hp]
    simp

/-- C152: there are `n` trials; every one sets exactly the hyper-parameters given, in order, to values within their limits, the upper one excluded. -/
theorem C152_within_limits (hyper : List (N × Lim)) (n : ℕ) (u : ℕ → ℕ → ℕ → ℚ) (hu : ∀ i k j, 0 ≤ u i k j ∧ u i k j < 1) :
    (cartridge hyper n u).length = n ∧ ∀ t ∈ cartridge hyper n u, t.map Prod.fst = hyper.map Prod.fst ∧
      ∀ (k : ℕ) (h : N × Lim), hyper[k]? = some h → ∃ v, t[k]? = some (h.1, v) ∧ InLim h.2 v := by
  refine ⟨by simp [cartridge], fun t ht => ?_⟩
  obtain ⟨i, -, rfl⟩ := List.mem_map.1 ht
  refine ⟨?_, fun k h hk => ⟨sample (u i k) h.2, ?_, sample_inLim _ (hu i k) _⟩⟩
  · apply List.ext_getElem?
    intro k
    unfold trialOf
    rw [List.getElem?_map, List.getElem?_map, List.getElem?_map, List.getElem?_zipIdx]
    cases hyper[k]? <;> simp
  · unfold trialOf
    rw [List.getElem?_map, List.getElem?_zipIdx, hk]
    simp

/-- C152: every value between the limits can be drawn. -/
theorem C152_covers_limits (lo hi q : ℚ) (h1 : lo ≤ q) (h2 : q < hi) : ∃ v : ℚ, 0 ≤ v ∧ v < 1 ∧ sample (fun _ => v) (.scalar lo hi) = .num q := by
  have hpos : 0 < hi - lo := by linarith
  refine ⟨(q - lo) / (hi - lo), div_nonneg (by linarith) hpos.le, (div_lt_one hpos).2 (by linarith), ?_⟩
  show Val.num ((q - lo) / (hi - lo) * (hi - lo) + lo) = .num q
  rw [div_mul_cancel₀ _ hpos.ne', sub_add_cancel]

theorem boundScore_ok (r : Except PyErr (Option Score × Kw N)) (s : Score) (kw : Kw N) (h : boundScore r = .ok (s, kw)) : r = .ok (some s, kw) := by
  unfold boundScore at h
  split at h
  · cases h
  · cases h
  · cases h; rfl

theorem boundScore_map (r : Except PyErr (Option Score × Kw N)) (s : Score) (h : (boundScore r).map Prod.fst = .ok s) : ∃ kw, r = .ok (some s, kw) := by
  cases hb : boundScore r with
  | error e => rw [hb] at h; cases h
  | ok p =>
    rw [hb] at h
    obtain ⟨s', kw⟩ := p
    cases h
    exact ⟨kw, boundScore_ok r s' kw hb⟩

/-- What a successful parallel search did. -/
theorem tune_par (C : Cls N σ) (x : Frame N) (trials : List (List (N × Val))) (kw kw' : Kw N) (o : Obj N σ) (h : tune C x trials true kw = .ok (o, kw')) :
    ∃ ss b t, argmin ss = .ok b ∧ trials[b]? = some t ∧ kw' = ({ kw with optimize := false } : Kw N).update t ∧ mk C kw' = .ok o ∧ ss.length = trials.length ∧
      ∀ (j : ℕ) (tj : List (N × Val)), trials[j]? = some tj → ∃ s, ss[j]? = some s ∧ aloneScore C { kw with optimize := false } x tj s := by
  unfold tune scores at h
  rw [if_pos rfl] at h
  cases hp : scoresPar C { kw with optimize := false } x trials with
  | error e => rw [hp] at h; cases h
  | ok ss =>
    rw [hp] at h
    simp only [Except.map] at h
    cases ha : argmin ss with
    | error e => simp only [ha] at h; cases h
    | ok b =>
      simp only [ha] at h
      cases hm : mk C (({ kw with optimize := false } : Kw N).update (trials.getD b [])) with
      | error e => simp only [hm] at h; cases h
      | ok m =>
        simp only [hm] at h
        cases h
        obtain ⟨hl, he⟩ := Hybrid.mapM_inv _ trials ss hp
        have hb : b < ss.length := by
          by_cases hn : none ∈ ss
          · exact (List.getElem?_eq_some_iff.1 (argmin_nan ss b ha hn).1).1
          · obtain ⟨q, hq, -⟩ := argmin_min ss b ha hn
            exact (List.getElem?_eq_some_iff.1 hq).1
        have hbt : trials[b]? = some trials[b] := List.getElem?_eq_getElem (by omega)
        have hg : trials.getD b [] = trials[b] := Hybrid.getD_of_getElem? _ _ _ _ hbt
        refine ⟨ss, b, trials[b], ha, hbt, by rw [hg], by rw [← hm], hl, fun j tj hj => ?_⟩
        obtain ⟨s, hs1, hs2⟩ := he j tj hj
        exact ⟨s, hs2, boundScore_map _ s hs1⟩

/-- C152: if no score is NaN, the parallel search returns the keywords updated with the first of the trials that score best, each trial being scored on its own. -/
theorem C152_best_trial (C : Cls N σ) (x : Frame N) (trials : List (List (N × Val))) (kw kw' : Kw N) (o : Obj N σ) (h : tune C x trials true kw = .ok (o, kw'))
    (hnan : ∀ t ∈ trials, ¬ aloneScore C { kw with optimize := false } x t none) :
    ∃ b t q, trials[b]? = some t ∧ aloneScore C { kw with optimize := false } x t (some q) ∧ kw' = ({ kw with optimize := false } : Kw N).update t ∧ mk C kw' = .ok o ∧
      ∀ (j : ℕ) (tj : List (N × Val)), trials[j]? = some tj → ∃ v, aloneScore C { kw with optimize := false } x tj (some v) ∧ q ≤ v ∧ (j < b → q < v) := by
  obtain ⟨ss, b, t, ha, hb, hk, hm, hl, he⟩ := tune_par C x trials kw kw' o h
  have hn : none ∉ ss := by
    intro hn
    obtain ⟨j, hj⟩ := List.mem_iff_getElem?.1 hn
    have hlt := (List.getElem?_eq_some_iff.1 hj).1
    obtain ⟨s, hs1, hs2⟩ := he j _ (List.getElem?_eq_getElem (by omega))
    rw [hj] at hs1
    cases hs1
    exact hnan _ (List.getElem_mem (by omega)) hs2
  obtain ⟨q, hq, hmin⟩ := argmin_min ss b ha hn
  obtain ⟨s, hs1, hs2⟩ := he b t hb
  rw [hq] at hs1
  cases hs1
  refine ⟨b, t, q, hb, hs2, hk, hm, fun j tj hj => ?_⟩
  obtain ⟨s, hs3, hs4⟩ := he j tj hj
  cases s with
  | none => exact absurd (List.mem_iff_getElem?.2 ⟨j, hs3⟩) hn
  | some v => exact ⟨v, hs4, hmin j v hs3⟩

/-- C152 (defect): if a trial scores NaN, the search returns the first trial that scores NaN, whatever the others score. -/
theorem C152_nan_wins (C : Cls N σ) (x : Frame N) (trials : List (List (N × Val))) (kw kw' : Kw N) (o : Obj N σ) (h : tune C x trials true kw = .ok (o, kw'))
    (hnan : ∃ t ∈ trials, aloneScore C { kw with optimize := false } x t none) :
    ∃ b t, trials[b]? = some t ∧ aloneScore C { kw with optimize := false } x t none ∧ kw' = ({ kw with optimize := false } : Kw N).update t ∧
      ∀ (j : ℕ) (tj : List (N × Val)), j < b → trials[j]? = some tj → ∃ v, aloneScore C { kw with optimize := false } x tj (some v) := by
  obtain ⟨ss, b, t, ha, hb, hk, hm, hl, he⟩ := tune_par C x trials kw kw' o h
  obtain ⟨t', ht', hs'⟩ := hnan
  obtain ⟨j, hj⟩ := List.mem_iff_getElem?.1 ht'
  have hn : none ∈ ss := by
    obtain ⟨s, hs1, kw1, hs2⟩ := he j t' hj
    obtain ⟨kw2, hs3⟩ := hs'
    rw [hs2] at hs3
    cases hs3
    exact List.mem_iff_getElem?.2 ⟨j, hs1⟩
  obtain ⟨h1, h2⟩ := argmin_nan ss b ha hn
  obtain ⟨s, hs1, hs2⟩ := he b t hb
  rw [h1] at hs1
  cases hs1
  refine ⟨b, t, hb, hs2, hk, fun j tj hjb hj => ?_⟩
  obtain ⟨s, hs3, hs4⟩ := he j tj hj
  have := h2 j s hjb hs3
  cases s with
  | none => exact absurd rfl this
  | some v => exact ⟨v, hs4⟩

/-! ### C153: sequential search -/

theorem afterTargets_targets (kw : Kw N) (ts : List N) (h : ts ≠ []) : (afterTargets kw ts).targets = none := by
  unfold afterTargets
  induction ts generalizing kw with
  | nil => exact absurd rfl h
  | cons c ts ih =>
    rw [List.foldl_cons]
    by_cases hs : ts = []
    · subst hs; rfl
    · exact ih _ hs

theorem afterTargets_name (kw : Kw N) (ts : List N) (c : N) : (afterTargets kw (ts ++ [c])).targetName = some c := by
  unfold afterTargets
  rw [List.foldl_append]
  rfl

theorem afterTargets_pars (kw : Kw N) (ts : List N) : (afterTargets kw ts).pars = kw.pars ∧ (afterTargets kw ts).optimize = kw.optimize := by
  unfold afterTargets
  induction ts generalizing kw with
  | nil => exact ⟨rfl, rfl⟩
  | cons c ts ih => rw [List.foldl_cons]; exact ih _

theorem fitSample_none (C : Cls N σ) (kw : Kw N) (t : List (N × Val)) (x : Frame N) (h : kw.targets = none) : ∃ e, boundScore (fitSample C kw t x) = .error e := by
  unfold fitSample
  cases mk C (kw.update t) with
  | error e => exact ⟨e, rfl⟩
  | ok o =>
    simp only [h]
    cases C.fitCore o.attrs o.st x with
    | error e => exact ⟨e, rfl⟩
    | ok st => exact ⟨_, rfl⟩

theorem fitSample_kw (C : Cls N σ) (kw kw' : Kw N) (t : List (N × Val)) (x : Frame N) (ts : List N) (hts : kw.targets = some ts) (s : Score)
    (h : boundScore (fitSample C kw t x) = .ok (s, kw')) : kw' = afterTargets (kw.update t) ts := by
  have h := boundScore_ok _ _ _ h
  unfold fitSample at h
  cases hm : mk C (kw.update t) with
  | error e => rw [hm] at h; cases h
  | ok o =>
    simp only [hm, hts] at h
    cases hl : ts.mapM (targetScore C (kw.update t) x ts) with
    | error e => simp only [hl] at h; cases h
    | ok ss => simp only [hl] at h; cases h; rfl

/-- C153 (defect): with `parallel=False` a search with two or more trials never succeeds. -/
theorem C153_sequential_fails (C : Cls N σ) (x : Frame N) (t1 t2 : List (N × Val)) (trials : List (List (N × Val))) (kw : Kw N) (hts : kw.targets ≠ some []) :
    ∃ e, tune C x (t1 :: t2 :: trials) false kw = .error e := by
  unfold tune scores
  simp only [Bool.false_eq_true, if_false, scoresSeq]
  cases h1 : boundScore (fitSample C { kw with optimize := false } t1 x) with
  | error e => exact ⟨e, rfl⟩
  | ok p =>
    obtain ⟨s, kw1⟩ := p
    have hn : kw1.targets = none := by
      cases ht : kw.targets with
      | none =>
        obtain ⟨e, he⟩ := fitSample_none C { kw with optimize := false } t1 x ht
        rw [he] at h1; cases h1
      | some ts =>
        rw [fitSample_kw C { kw with optimize := false } kw1 t1 x ts ht s h1]
        exact afterTargets_targets _ _ (fun h => hts (by rw [ht, h]))
    obtain ⟨e, he⟩ := fitSample_none C kw1 t2 x hn
    simp only [he]
    exact ⟨e, rfl⟩

/-- C153 (defect): if the first trial is scored and the model of the second trial can be built and fitted, the failure is an `UnboundLocalError`. -/
theorem C153_sequential_error (C : Cls N σ) (x : Frame N) (t1 t2 : List (N × Val)) (trials : List (List (N × Val))) (kw kw1 : Kw N) (s : Score) (o : Obj N σ) (st : σ)
    (hts : kw.targets ≠ some []) (h1 : fitSample C { kw with optimize := false } t1 x = .ok (some s, kw1))
    (h2 : mk C (kw1.update t2) = .ok o) (h3 : C.fitCore o.attrs o.st x = .ok st) :
    tune C x (t1 :: t2 :: trials) false kw = .error .unboundLocalError := by
  have hb : boundScore (fitSample C { kw with optimize := false } t1 x) = .ok (s, kw1) := by rw [h1]; rfl
  have hn : kw1.targets = none := by
    cases ht : kw.targets with
    | none =>
      obtain ⟨e, he⟩ := fitSample_none C { kw with optimize := false } t1 x ht
      rw [he] at hb; cases hb
    | some ts =>
      rw [fitSample_kw C { kw with optimize := false } kw1 t1 x ts ht s hb]
      exact afterTargets_targets _ _ (fun h => hts (by rw [ht, h]))
  have he : boundScore (fitSample C kw1 t2 x) = .error .unboundLocalError := by
    unfold fitSample
    simp only [h2, hn, h3]
    rfl
  unfold tune scores
  simp only [Bool.false_eq_true, if_false, scoresSeq, hb, he]

/-- C153 (defect): without `targets_names` no search with a trial succeeds; without trials the search raises `ValueError`. -/
theorem C153_needs_targets (C : Cls N σ) (x : Frame N) (kw : Kw N) (parallel : Bool) :
    (kw.targets = none → ∀ t trials, ∃ e, tune C x (t :: trials) parallel kw = .error e) ∧ tune C x [] parallel kw = .error .valueError := by
  constructor
  · intro hn t trials
    obtain ⟨e, he⟩ := fitSample_none C { kw with optimize := false } t x hn
    unfold tune scores
    cases parallel with
    | false => simp only [Bool.false_eq_true, if_false, scoresSeq, he]; exact ⟨e, rfl⟩
    | true =>
      simp only [if_true]
      have : ∃ e, scoresPar C { kw with optimize := false } x (t :: trials) = .error e :=
        Hybrid.mapM_error _ _ t (by simp) ⟨e, by rw [he]; rfl⟩
      obtain ⟨e', he'⟩ := this
      rw [he']
      exact ⟨e', rfl⟩
  · unfold tune scores
    cases parallel <;> rfl

/-- C153 (defect): a sequential search with one trial returns a model for the last of the targets; with `return_model=True` the model is one for the original target. -/
theorem C153_single_trial (C : Cls N σ) (x : Frame N) (t : List (N × Val)) (kw kw' : Kw N) (o : Obj N σ) (ts : List N) (c : N) (hts : kw.targets = some (ts ++ [c]))
    (h : tune C x [t] false kw = .ok (o, kw')) :
    o.attrs.targetName = some c ∧ o.attrs.targets = some [c] ∧ o.attrs.optimize = false ∧ o.attrs.pars = ((kw.update t).update t).pars ∧
      ∀ o', tuneModel C x [t] false kw = .ok o' → o'.attrs.targetName = kw.targetName ∧ kw.targetName.isSome ∧ o'.attrs.targets = some [c] ∧ o'.attrs.pars = o.attrs.pars := by
  have h0 := h
  unfold tune scores at h
  simp only [Bool.false_eq_true, if_false, scoresSeq] at h
  cases hb : boundScore (fitSample C { kw with optimize := false } t x) with
  | error e => simp only [hb] at h; cases h
  | ok p =>
    obtain ⟨s, kw1⟩ := p
    have hk : kw1 = afterTargets (({ kw with optimize := false } : Kw N).update t) (ts ++ [c]) := fitSample_kw C { kw with optimize := false } kw1 t x _ hts s hb
    simp only [hb] at h
    have ha : argmin [s] = .ok 0 := by
      unfold argmin
      cases s <;> simp [sle, List.findIdx_cons]
    simp only [ha] at h
    cases hm : mk C (kw1.update ([t].getD 0 [])) with
    | error e => simp only [hm] at h; cases h
    | ok m =>
      simp only [hm] at h
      cases h
      obtain ⟨tn, htn, -, rfl⟩ := mk_ok C _ _ hm
      have hn1 : (kw1.update ([t].getD 0 [])).targetName = some c := by
        rw [show (kw1.update ([t].getD 0 [])).targetName = kw1.targetName from rfl, hk, afterTargets_name]
      rw [hn1] at htn
      simp only [Option.some_or, Option.some.injEq] at htn
      subst htn
      have hp := afterTargets_pars (({ kw with optimize := false } : Kw N).update t) (ts ++ [c])
      have h2 : (kw1.update ([t].getD 0 [])).targets = none := by
        rw [show (kw1.update ([t].getD 0 [])).targets = kw1.targets from rfl, hk, afterTargets_targets _ _ (by simp)]
      have hpars : (kw1.update ([t].getD 0 [])).pars = ((kw.update t).update t).pars := by
        rw [show [t].getD 0 [] = t from rfl]
        unfold Kw.update
        simp only
        rw [hk]
        rw [hp.1]
        rfl
      refine ⟨rfl, ?_, ?_, ?_, ?_⟩
      · show some ((kw1.update ([t].getD 0 [])).targets.getD [c]) = some [c]
        rw [h2]; rfl
      · show kw1.optimize = false
        rw [hk]; exact hp.2
      · exact hpars
      · intro o' ho'
        unfold tuneModel at ho'
        simp only [h0, hn1, Option.isSome_some, if_true] at ho'
        cases ht0 : kw.targetName with
        | none => simp only [ht0] at ho'; cases ho'
        | some t0 =>
          simp only [ht0] at ho'
          revert ho'
          generalize C.fitCore _ _ x = r
          intro ho'
          cases r with
          | error e => cases ho'
          | ok st =>
            cases ho'
            refine ⟨rfl, rfl, ?_, rfl⟩
            show some ((kw1.update ([t].getD 0 [])).targets.getD [c]) = some [c]
            rw [h2]; rfl

/-- C153: a parallel search keeps the target and the list of targets. -/
theorem C153_parallel_keeps_targets (C : Cls N σ) (x : Frame N) (trials : List (List (N × Val))) (kw kw' : Kw N) (o : Obj N σ) (t : N) (ht : kw.targetName = some t)
    (h : tune C x trials true kw = .ok (o, kw')) :
    o.attrs.targetName = some t ∧ o.attrs.targets = some (kw.targets.getD [t]) ∧ kw'.targetName = some t ∧ kw'.targets = kw.targets := by
  obtain ⟨ss, b, tr, -, -, hk, hm, -, -⟩ := tune_par C x trials kw kw' o h
  obtain ⟨tn, htn, -, rfl⟩ := mk_ok C _ _ hm
  subst hk
  have : (({ kw with optimize := false } : Kw N).update tr).targetName = some t := ht
  rw [this] at htn
  simp only [Option.some_or, Option.some.injEq] at htn
  subst htn
  exact ⟨rfl, rfl, ht, rfl⟩

end PyF.Tune
