import Verif.Hyper.Lemmas

namespace PyF.Hyper
open PyF PyF.Params

variable {N V : Type} [DecidableEq N]

/-- C191 (exact): in a full search each trial is scored on a clone whose parameters are, for the stored names of the signature, the last values set by this trial **or any trial before it**, else the
values the object had; every other parameter is at its default. -/
theorem C191_trial_object (c : Cls N V) (kw₀ : List (N × V)) (ob : Obj N V) (hob : construct c kw₀ = .ok ob) (folds : ℕ) (score : Obj N V → ℕ → Option ℚ) (draw : ℕ → ℕ)
    (sampler : List (Trial N V) → List (N × V)) (hk : ∀ h, ((sampler h).map Prod.fst).Nodup) (n : ℕ) (ob' : Obj N V) (trials : List (Trial N V))
    (hs : search c true folds score draw sampler n ob = .ok (ob', trials)) :
    trials.length = n ∧ ∀ (i : ℕ) t, trials[i]? = some t → t.params = sampler (trials.take i) ∧ ∃ cl : Obj N V,
      t.attr = some ((List.range folds).map (score cl)) ∧
      (∀ m ∈ c.sig, c.stored m = true → Spec.Last m ((trials.take (i + 1)).map (·.params)) (ob.received m) (cl.received m)) ∧
      (∀ m, m ∉ c.sig ∨ c.stored m = false → cl.received m = c.default m) ∧
      cl.frozen = cl.received ∧ ∀ m, cl.attrs m = if c.stored m then some (cl.received m) else none := by
  obtain ⟨new, h1, h2, h3, h4⟩ := study_run c true folds score draw sampler n ob [] ob' trials hs
  simp only [List.nil_append] at h1
  subst h1
  refine ⟨h2, ?_⟩
  intro i t ht
  obtain ⟨o₁, h5, h6⟩ := h4 i t ht
  simp only [List.nil_append] at h6
  refine ⟨h6, ?_⟩
  have hatt := construct_inv hob
  have htake : trials.take (i + 1) = trials.take i ++ [t] := by
    rw [List.take_add_one, ht]; rfl
  have hfold : ∀ l : List (Trial N V), ∀ t', (l ++ [t']).foldl (fun (o : Obj N V) (t : Trial N V) => o.setParams t.params) ob = (l.foldl (fun (o : Obj N V) (t : Trial N V) => o.setParams t.params) ob).setParams t'.params := by
    intro l t'; rw [List.foldl_append]; rfl
  unfold objective at h5
  unfold applyTrial at h5
  split at h5
  · cases h5
  rename_i o heq
  split at heq
  swap
  · cases heq
  cases heq
  simp only [if_true] at h5
  split at h5
  · cases h5
  rename_i cl hcl
  rw [← hfold, ← htake] at hcl
  have hattr : t.attr = some ((List.range folds).map (score cl)) := by
    have := congrArg (fun r => match r with | Except.ok (p : Obj N V × Trial N V) => p.2.attr | .error _ => none) h5
    simpa using this.symm
  have hcl' := construct_inv hcl
  have hrec : ∀ m, cl.received m = if m ∈ c.sig then (((trials.take (i + 1)).foldl (fun o t => o.setParams t.params) ob).attrs m).getD (c.default m) else c.default m := by
    intro m
    unfold clone construct at hcl
    split at hcl
    · cases hcl
      simp only [lookup_getParams]
      split <;> rfl
    · cases hcl
  refine ⟨cl, hattr, ?_, ?_, hcl'.2, ?_⟩
  · intro m hm hst
    rw [hrec, if_pos hm]
    have hinit : ob.attrs m = some (ob.received m) := by rw [hatt.1]; simp [hst]
    have hsome : (((trials.take (i + 1)).foldl (fun o t => o.setParams t.params) ob).attrs m).isSome := by rw [foldl_isSome, hinit]; rfl
    obtain ⟨v, hv⟩ := Option.isSome_iff_exists.1 hsome
    rw [hv, Option.getD_some]
    refine (foldl_last _ ?_ ob m _ hinit v).1 hv
    intro t' ht'
    obtain ⟨j, hj⟩ := List.mem_iff_getElem?.1 (List.mem_of_mem_take ht')
    obtain ⟨_, _, h8⟩ := h4 j t' hj
    rw [h8]; exact hk _
  · intro m hm
    rw [hrec]
    rcases hm with hm | hm
    · rw [if_neg hm]
    · split
      · have hinit : ob.attrs m = none := by rw [hatt.1]; simp [hm]
        have := foldl_isSome (trials.take (i + 1)) ob m
        rw [hinit] at this
        have h0 : ((trials.take (i + 1)).foldl (fun o t => o.setParams t.params) ob).attrs m = none := by simpa using this
        rw [h0]; rfl
      · rfl
  · intro m; rw [hcl'.1]

/-- C191 (value): the value of a trial of a full search is the mean of its fold scores, NaN if one of them is. -/
theorem C191_value (c : Cls N V) (ob : Obj N V) (folds : ℕ) (hf : 0 < folds) (score : Obj N V → ℕ → Option ℚ) (draw : ℕ → ℕ) (sampler : List (Trial N V) → List (N × V)) (n : ℕ) (ob' : Obj N V)
    (trials : List (Trial N V)) (hs : search c true folds score draw sampler n ob = .ok (ob', trials)) (t : Trial N V) (ht : t ∈ trials) :
    ∃ l, t.attr = some l ∧ l.length = folds ∧ (none ∈ l → t.value = none) ∧ ∀ q : List ℚ, l = q.map some → ∃ v, t.value = some v ∧ v * folds = q.sum := by
  obtain ⟨new, h1, h2, h3, h4⟩ := study_run c true folds score draw sampler n ob [] ob' trials hs
  simp only [List.nil_append] at h1
  subst h1
  obtain ⟨i, hi⟩ := List.mem_iff_getElem?.1 ht
  obtain ⟨o₁, h5, _⟩ := h4 i t hi
  unfold objective at h5
  split at h5
  · cases h5
  simp only [if_true] at h5
  split at h5
  · cases h5
  rename_i cl hcl
  have hatt : t.attr = some ((List.range folds).map (score cl)) := by
    have := congrArg (fun r => match r with | Except.ok (p : Obj N V × Trial N V) => p.2.attr | .error _ => none) h5
    simpa using this.symm
  have hval : t.value = mean ((List.range folds).map (score cl)) := by
    have := congrArg (fun r => match r with | Except.ok (p : Obj N V × Trial N V) => p.2.value | .error _ => none) h5
    simpa using this.symm
  refine ⟨_, hatt, by simp, ?_, ?_⟩
  · intro h
    rw [hval]; unfold mean; rw [mapM_none _ h]
  · intro q hq
    have hlen : q.length = folds := by
      have := congrArg List.length hq
      simpa using this.symm
    have hfq : (0 : ℚ) < (folds : ℚ) := by exact_mod_cast hf
    refine ⟨q.sum / folds, ?_, div_mul_cancel₀ _ hfq.ne'⟩
    rw [hval, hq]; unfold mean; rw [mapM_some]
    simp only [hlen]
    rw [if_neg (by omega)]

/-- C191 (fixed names): if every trial names at least the parameters of the trials before it, each trial gives the scores and the value it would give alone, whatever the trials before it. -/
theorem C191_as_if_alone (c : Cls N V) (ob : Obj N V) (full : Bool) (folds : ℕ) (score : Obj N V → ℕ → Option ℚ) (draw : ℕ → ℕ)
    (sampler : List (Trial N V) → List (N × V)) (hk : ∀ h, ((sampler h).map Prod.fst).Nodup) (n : ℕ) (ob' : Obj N V) (trials : List (Trial N V))
    (hs : search c full folds score draw sampler n ob = .ok (ob', trials))
    (hnames : ∀ (i j : ℕ) s t, i ≤ j → trials[i]? = some s → trials[j]? = some t → ∀ m, m ∈ s.params.map Prod.fst → m ∈ t.params.map Prod.fst)
    (i : ℕ) (t : Trial N V) (ht : trials[i]? = some t) :
    ∃ o, search c full folds score (fun _ => draw i) (fun _ => t.params) 1 ob = .ok (o, [t]) := by
  obtain ⟨new, h1, h2, h3, h4⟩ := study_run c full folds score draw sampler n ob [] ob' trials hs
  simp only [List.nil_append] at h1
  subst h1
  obtain ⟨o₁, h5, h6⟩ := h4 i t ht
  have hset : (((trials.take i).foldl (fun o t => o.setParams t.params) ob)).setParams t.params = ob.setParams t.params := by
    refine foldl_same_names _ _ ?_ ?_ _
    · rw [h6]; exact hk _
    · intro s hs' m hm
      obtain ⟨j, hj⟩ := List.mem_iff_getElem?.1 hs'
      have hji : j < i := by
        by_contra hc
        rw [List.getElem?_take, if_neg hc] at hj
        cases hj
      rw [List.getElem?_take_of_lt hji] at hj
      exact hnames j i s t (by omega) hj ht m hm
  have hguard : ((getParams c.sig ((trials.take i).foldl (fun o t => o.setParams t.params) ob).attrs).map Prod.fst) = (getParams c.sig ob.attrs).map Prod.fst := by
    have : ∀ a : Attrs N V, (getParams c.sig a).map Prod.fst = c.sig.filter (fun k => (a k).isSome) := by
      intro a
      unfold getParams
      induction c.sig with
      | nil => rfl
      | cons k l ih =>
        rw [List.filterMap_cons, List.filter_cons]
        cases h : a k with
        | none => simpa using ih
        | some v => simpa using ih
    rw [this, this]
    congr 1
    funext k
    rw [foldl_isSome]
  have heq : objective c full folds score (draw i) ob t.params = .ok (o₁, t) := by
    rw [← h5]
    simp only [List.length_nil, Nat.zero_add]
    unfold objective applyTrial
    rw [hguard, hset]
  refine ⟨o₁, ?_⟩
  unfold search study
  simp only [heq]
  rfl

/-- C192: after a search the object holds, for every stored name, the value of the last trial naming it, and is otherwise as before. -/
theorem C192_object_after (c : Cls N V) (kw₀ : List (N × V)) (ob : Obj N V) (hob : construct c kw₀ = .ok ob) (full : Bool) (folds : ℕ) (score : Obj N V → ℕ → Option ℚ) (draw : ℕ → ℕ)
    (sampler : List (Trial N V) → List (N × V)) (hk : ∀ h, ((sampler h).map Prod.fst).Nodup) (n : ℕ) (ob' : Obj N V) (trials : List (Trial N V))
    (hs : search c full folds score draw sampler n ob = .ok (ob', trials)) :
    ob'.received = ob.received ∧ ob'.frozen = ob.frozen ∧
    (∀ m, c.stored m = true → ∃ v, ob'.attrs m = some v ∧ Spec.Last m (trials.map (·.params)) (ob.received m) v) ∧
    ∀ m, c.stored m = false → ob'.attrs m = none := by
  obtain ⟨new, h1, h2, h3, h4⟩ := study_run c full folds score draw sampler n ob [] ob' trials hs
  simp only [List.nil_append] at h1
  subst h1
  have hatt := construct_inv hob
  have hr := foldl_received trials ob
  subst h3
  refine ⟨hr.1, hr.2, ?_, ?_⟩
  · intro m hst
    have hinit : ob.attrs m = some (ob.received m) := by rw [hatt.1]; simp [hst]
    have hsome : ((trials.foldl (fun o t => o.setParams t.params) ob).attrs m).isSome := by rw [foldl_isSome, hinit]; rfl
    obtain ⟨v, hv⟩ := Option.isSome_iff_exists.1 hsome
    refine ⟨v, hv, (foldl_last _ ?_ ob m _ hinit v).1 hv⟩
    intro t' ht'
    obtain ⟨j, hj⟩ := List.mem_iff_getElem?.1 ht'
    obtain ⟨_, _, h8⟩ := h4 j t' hj
    rw [h8]; exact hk _
  · intro m hst
    have hinit : ob.attrs m = none := by rw [hatt.1]; simp [hst]
    have := foldl_isSome trials ob m
    rw [hinit] at this
    simpa using this

/-- C192 (defect): the object holds the parameters of the best trial iff the last trial has the same ones. All parameters searched are stored, and every trial names the same ones. -/
theorem C192_best_iff_last (c : Cls N V) (kw₀ : List (N × V)) (ob : Obj N V) (hob : construct c kw₀ = .ok ob) (full : Bool) (folds : ℕ) (score : Obj N V → ℕ → Option ℚ) (draw : ℕ → ℕ)
    (sampler : List (Trial N V) → List (N × V)) (names : List N) (hnd : names.Nodup) (hst : ∀ m ∈ names, c.stored m = true) (hk : ∀ h, (sampler h).map Prod.fst = names)
    (n : ℕ) (ob' : Obj N V) (trials : List (Trial N V)) (hs : search c full folds score draw sampler n ob = .ok (ob', trials))
    (b : ℕ) (best last : Trial N V) (hb : trials[b]? = some best) (hl : trials.getLast? = some last) :
    (∀ m v, (m, v) ∈ best.params → ob'.attrs m = some v) ↔ best.params = last.params := by
  have hat := C192_object_after c kw₀ ob hob full folds score draw sampler (fun h => by rw [hk]; exact hnd) n ob' trials hs
  obtain ⟨new, h1, h2, h3, h4⟩ := study_run c full folds score draw sampler n ob [] ob' trials hs
  simp only [List.nil_append] at h1
  subst h1
  have hpar : ∀ t ∈ trials, t.params.map Prod.fst = names := by
    intro t ht
    obtain ⟨j, hj⟩ := List.mem_iff_getElem?.1 ht
    obtain ⟨_, _, h8⟩ := h4 j t hj
    rw [h8]; exact hk _
  have hbm : best ∈ trials := List.mem_of_getElem? hb
  have hlm : last ∈ trials := List.mem_of_getLast? hl
  have hlastidx : trials[trials.length - 1]? = some last := by rw [← List.getLast?_eq_getElem?]; exact hl
  have hpos : 0 < trials.length := List.length_pos_of_mem hlm
  -- the object holds the parameters of the last trial
  have hlast : ∀ m v, (m, v) ∈ last.params → ob'.attrs m = some v := by
    intro m v hm
    have hmn : m ∈ names := by rw [← hpar last hlm]; exact List.mem_map.2 ⟨_, hm, rfl⟩
    have huniq : ∀ w, (m, w) ∈ last.params → w = v := by
      intro w hw
      have hn : (last.params.map Prod.fst).Nodup := by rw [hpar last hlm]; exact hnd
      have := List.inj_on_of_nodup_map hn hw hm rfl
      exact (Prod.mk.inj this).2
    obtain ⟨w, hw, hL⟩ := hat.2.2.1 m (hst m hmn)
    rw [hw]
    rcases hL with ⟨i, kw, hi, hmem, hmax⟩ | ⟨hno, _⟩
    · have hlt : i < trials.length := by
        by_contra hc
        rw [List.getElem?_eq_none (by simp; omega)] at hi; cases hi
      by_cases hi' : i = trials.length - 1
      · subst hi'
        rw [List.getElem?_map, hlastidx] at hi
        simp only [Option.map_some, Option.some.injEq] at hi
        subst hi
        rw [huniq w hmem]
      · exact absurd hm (hmax (trials.length - 1) last.params (by omega) (by rw [List.getElem?_map, hlastidx]; rfl) v)
    · exact absurd hm (hno last.params (List.mem_map.2 ⟨_, hlm, rfl⟩) v)
  constructor
  · intro h
    have hlen : best.params.length = last.params.length := by
      rw [← List.length_map (f := Prod.fst), ← List.length_map (as := last.params) (f := Prod.fst), hpar _ hbm, hpar _ hlm]
    apply List.ext_getElem hlen
    intro i h1 h2
    have hfst : (best.params[i]).1 = (last.params[i]).1 := by
      have e1 : (best.params.map Prod.fst)[i]? = (last.params.map Prod.fst)[i]? := by rw [hpar _ hbm, hpar _ hlm]
      rw [List.getElem?_map, List.getElem?_map, List.getElem?_eq_getElem h1, List.getElem?_eq_getElem h2] at e1
      simpa using e1
    have e2 := h (best.params[i]).1 (best.params[i]).2 (List.getElem_mem h1)
    have e3 := hlast (last.params[i]).1 (last.params[i]).2 (List.getElem_mem h2)
    rw [hfst, e3] at e2
    exact Prod.ext hfst (Option.some.inj e2).symm
  · intro h m v hm
    rw [h] at hm
    exact hlast m v hm

/-- C193 (defect): a `random_fold` search of a class whose `fit` reads the dictionary frozen by its constructor (`LGBForecaster`, `QRF`) fits the same thing in every trial: if the score of a fold
depends on the constructor arguments and on what the training uses, two trials drawing the same fold have the same value whatever their parameters. -/
theorem C193_frozen_not_tuned (c : Cls N V) (hc : c.frozenDict = true) (ob : Obj N V) (folds : ℕ) (score : Obj N V → ℕ → Option ℚ) (draw : ℕ → ℕ)
    (hscore : ∀ o o' : Obj N V, o.received = o'.received → (∀ m, trainValue c o m = trainValue c o' m) → ∀ k, score o k = score o' k)
    (sampler : List (Trial N V) → List (N × V)) (n : ℕ) (ob' : Obj N V) (trials : List (Trial N V)) (hs : search c false folds score draw sampler n ob = .ok (ob', trials)) :
    ∀ (i : ℕ) t, trials[i]? = some t → t.value = score ob (draw i) := by
  obtain ⟨new, h1, h2, h3, h4⟩ := study_run c false folds score draw sampler n ob [] ob' trials hs
  simp only [List.nil_append] at h1
  subst h1
  intro i t ht
  obtain ⟨o₁, h5, _⟩ := h4 i t ht
  unfold objective at h5
  unfold applyTrial at h5
  split at h5
  · cases h5
  rename_i o heq
  split at heq
  swap
  · cases heq
  cases heq
  simp only [Bool.false_eq_true, if_false, List.length_nil, Nat.zero_add] at h5
  have hval : t.value = score (((trials.take i).foldl (fun o t => o.setParams t.params) ob).setParams t.params) (draw i) := by
    have := congrArg (fun r => match r with | Except.ok (p : Obj N V × Trial N V) => p.2.value | .error _ => none) h5
    simpa using this.symm
  rw [hval]
  have hr := foldl_received (trials.take i) ob
  generalize (trials.take i).foldl (fun o t => o.setParams t.params) ob = o at hr ⊢
  refine hscore (o.setParams t.params) ob hr.1 ?_ _
  intro m
  simp only [trainValue, hc, if_true, Obj.setParams, hr.2]

end PyF.Hyper
