import Verif.Hybrid.Props
import Verif.Split.Props

namespace PyF.Hybrid

open PyF

theorem zipWith_getElem? {α β γ : Type} (f : α → β → γ) (a : List α) (b : List β) (t : ℕ) (x : α) (y : β) (hx : a[t]? = some x) (hy : b[t]? = some y) :
    (List.zipWith f a b)[t]? = some (f x y) := by
  rw [List.getElem?_zipWith, hx, hy]

/-- Unfolded step of the training loop. -/
theorem eaFitLoop_succ (E : Env) (nT : ℕ) (x y : List Row) (k i : ℕ) (models : List Reg) (es : List ℚ) (ms : List Reg) (h : eaFitLoop E nT x y (k + 1) i models es = .ok ms) :
    i < nT ∧ ∃ m u p q, fitReg E ((List.zipWith (eaFeat E i) es x).zip (col y i)) = .ok m ∧ (models ++ [m])[i]? = some u ∧
      (List.zipWith (eaFeat E i) es x).mapM (predReg u) = .ok p ∧ (List.zipWith (eaOff E i) es x).mapM (predReg u) = .ok q ∧
      eaFitLoop E nT x y k (i + 1) (models ++ [m]) (List.zipWith (fun e d => e + d) es (List.zipWith (fun b a => b - a) q p)) = .ok ms := by
  unfold eaFitLoop at h
  by_cases hi : nT ≤ i
  · rw [if_pos hi] at h; cases h
  rw [if_neg hi] at h
  simp only at h
  cases hm : fitReg E ((List.zipWith (eaFeat E i) es x).zip (col y i)) with
  | error e => rw [hm] at h; cases h
  | ok m =>
    rw [hm] at h
    simp only at h
    cases hu : (models ++ [m])[i]? with
    | none => rw [hu] at h; cases h
    | some u =>
      rw [hu] at h
      simp only at h
      cases hp : (List.zipWith (eaFeat E i) es x).mapM (predReg u) with
      | error e => rw [hp] at h; cases h
      | ok p =>
        cases hq : (List.zipWith (eaOff E i) es x).mapM (predReg u) with
        | error e => rw [hp, hq] at h; cases h
        | ok q =>
          rw [hp, hq] at h
          exact ⟨not_le.1 hi, m, u, p, q, rfl, hu, hp, hq, h⟩

/-- The loop appends one model per step and needs as many targets. -/
theorem eaFitLoop_prefix (E : Env) (nT : ℕ) (x y : List Row) (k : ℕ) : ∀ (i : ℕ) (models : List Reg) (es : List ℚ) (ms : List Reg),
    eaFitLoop E nT x y k i models es = .ok ms → ∃ new, ms = models ++ new ∧ new.length = k := by
  induction k with
  | zero => intro i models es ms h; cases h; exact ⟨[], by simp, rfl⟩
  | succ k ih =>
    intro i models es ms h
    obtain ⟨_, m, u, p, q, _, _, _, _, hr⟩ := eaFitLoop_succ E nT x y k i models es ms h
    obtain ⟨new, h1, h2⟩ := ih _ _ _ _ hr
    exact ⟨m :: new, by rw [h1]; simp, by simp [h2]⟩

theorem eaFitLoop_exact (E : Env) (hE : Interpolates E) (nT : ℕ) (x y : List Row) (hlen : x.length = y.length) (hp : ∀ i, SameWidth (x.map (E.prune i))) (k : ℕ) :
    ∀ (i : ℕ) (models : List Reg) (es : List ℚ) (ms : List Reg), models.length = i → es.length = x.length → (∀ j, i ≤ j → j < i + k → StepDet (E.prune j) x y j) →
      eaFitLoop E nT x y k i models es = .ok ms → ∀ tail, ∀ t < x.length,
        eaRow E (ms ++ tail) k i (es.getD t 0) (x.getD t []) = .ok ((List.range k).map (fun j => at2 y t (i + j))) := by
  induction k with
  | zero => intro i models es ms _ _ _ _ tail t _; rfl
  | succ k ih =>
    intro i models es ms hml hes hdet h tail t ht
    obtain ⟨_, m, u, p, q, h1, h2, h3, h4, h5⟩ := eaFitLoop_succ E nT x y k i models es ms h
    have hu : u = m := by
      rw [List.getElem?_append_right (by omega), hml, Nat.sub_self] at h2
      simpa using h2.symm
    subst hu
    obtain ⟨new, hms, _⟩ := eaFitLoop_prefix E nT x y k _ _ _ _ h5
    obtain ⟨hpl, hpe⟩ := mapM_inv _ _ _ h3
    obtain ⟨hql, hqe⟩ := mapM_inv _ _ _ h4
    have hmemx : ∀ a < x.length, x.getD a [] ∈ x := by
      intro a ha
      rw [List.getD_eq_getElem?_getD, List.getElem?_eq_getElem ha]
      exact List.getElem_mem ha
    have hx? : ∀ a < x.length, x[a]? = some (x.getD a []) := by
      intro a ha; rw [List.getD_eq_getElem?_getD, List.getElem?_eq_getElem ha]; rfl
    have he? : ∀ a < x.length, es[a]? = some (es.getD a 0) := by
      intro a ha; rw [List.getD_eq_getElem?_getD, List.getElem?_eq_getElem (by omega)]; rfl
    have hmem : ∀ a, a ∈ (List.zipWith (eaFeat E i) es x).zip (col y i) ↔ ∃ s < x.length, a = (eaFeat E i (es.getD s 0) (x.getD s []), at2 y s i) := by
      intro a
      rw [List.mem_iff_getElem?]
      constructor
      · rintro ⟨s, hs⟩
        obtain ⟨g1, g2⟩ := List.getElem?_zip_eq_some.1 hs
        have hsl : s < x.length := by
          have := (List.getElem?_eq_some_iff.1 g1).1
          rw [List.length_zipWith] at this
          omega
        rw [zipWith_getElem? _ es x s _ _ (he? s hsl) (hx? s hsl), Option.some.injEq] at g1
        unfold col at g2
        rw [List.getElem?_map, List.getElem?_eq_getElem (by omega), Option.map_some, Option.some.injEq] at g2
        refine ⟨s, hsl, Prod.ext g1.symm ?_⟩
        rw [← g2]
        unfold at2
        rw [List.getD_eq_getElem?_getD (l := y), List.getElem?_eq_getElem (by omega)]
        rfl
      · rintro ⟨s, hs, rfl⟩
        refine ⟨s, List.getElem?_zip_eq_some.2 ⟨zipWith_getElem? _ es x s _ _ (he? s hs) (hx? s hs), ?_⟩⟩
        unfold col at2
        rw [List.getElem?_map, List.getElem?_eq_getElem (by omega), Option.map_some, List.getD_eq_getElem?_getD (l := y), List.getElem?_eq_getElem (by omega)]
        rfl
    have htail : ∀ (e e' : ℚ), (if 0 < i then [e] else []).length = (if 0 < i then [e'] else []).length := by
      intro e e'; split_ifs <;> rfl
    have hcons : Consistent ((List.zipWith (eaFeat E i) es x).zip (col y i)) := by
      intro a ha b hb hab
      obtain ⟨s, hs, rfl⟩ := (hmem a).1 ha
      obtain ⟨v, hv, rfl⟩ := (hmem b).1 hb
      simp only [eaFeat] at hab
      exact hdet i le_rfl (by omega) s hs v hv (List.append_inj' hab (htail _ _)).1
    have hsw : SameWidth (((List.zipWith (eaFeat E i) es x).zip (col y i)).map Prod.fst) := by
      intro a ha b hb
      obtain ⟨a', ha', rfl⟩ := List.mem_map.1 ha
      obtain ⟨b', hb', rfl⟩ := List.mem_map.1 hb
      obtain ⟨s, hs, rfl⟩ := (hmem a').1 ha'
      obtain ⟨v, hv, rfl⟩ := (hmem b').1 hb'
      simp only [eaFeat, List.length_append]
      rw [hp i _ (List.mem_map_of_mem (hmemx s hs)) _ (List.mem_map_of_mem (hmemx v hv)), htail (es.getD s 0) (es.getD v 0)]
    have hexact : predReg u (eaFeat E i (es.getD t 0) (x.getD t [])) = .ok (at2 y t i) :=
      predReg_exact E hE _ hcons hsw u h1 (eaFeat E i (es.getD t 0) (x.getD t []), at2 y t i) ((hmem _).2 ⟨t, ht, rfl⟩)
    obtain ⟨b, hb1, hb2⟩ := hpe t _ (zipWith_getElem? _ es x t _ _ (he? t ht) (hx? t ht))
    obtain ⟨d, hd1, hd2⟩ := hqe t _ (zipWith_getElem? _ es x t _ _ (he? t ht) (hx? t ht))
    have hb : b = at2 y t i := by rw [hexact] at hb1; cases hb1; rfl
    subst hb
    have hrec := ih (i + 1) (models ++ [u]) _ ms (by simp [hml]) (by
      rw [List.length_zipWith, List.length_zipWith, hpl, hql, List.length_zipWith, List.length_zipWith]; omega) (fun j hj1 hj2 => hdet j (by omega) (by omega)) h5 tail t ht
    have hes' : (List.zipWith (fun e d => e + d) es (List.zipWith (fun b a => b - a) q p)).getD t 0 = es.getD t 0 + (d - at2 y t i) := by
      apply getD_of_getElem?
      exact zipWith_getElem? (fun (e d : ℚ) => e + d) es _ t _ _ (he? t ht) (zipWith_getElem? (fun (b a : ℚ) => b - a) q p t _ _ hd2 hb2)
    rw [hes'] at hrec
    have hmi : (ms ++ tail)[i]? = some u := by
      rw [hms, List.append_assoc, List.append_assoc, List.getElem?_append_right (by omega), hml, Nat.sub_self]
      rfl
    unfold eaRow
    simp only [hmi, hexact, hd1, hrec]
    congr 1
    rw [List.range_succ_eq_map, List.map_cons, List.map_map, Nat.add_zero]
    congr 1
    apply List.map_congr_left
    intro j _
    show at2 y t (i + 1 + j) = at2 y t (i + (j + 1))
    congr 1; omega

/-- What a successful fit of LGBEnergyAware did. -/
theorem eaFit_inv (E : Env) (c : Cfg) (old : State) (nT : ℕ) (x y : List Row) (draws : List (List ℕ)) (st : State) (errs : List Row) (h : eaFit E c old nT x y draws = .ok (st, errs)) :
    ∃ models, eaFitLoop E nT (Split.trainValSplit c.valRatio x y).1 (Split.trainValSplit c.valRatio x y).2.1 c.nSingle 0 old.models ((Split.trainValSplit c.valRatio x y).1.map (fun _ => 0)) = .ok models ∧
      hybridFit eaPredict E c { old with models := models } nT (Split.trainValSplit c.valRatio x y).2.2.1 (Split.trainValSplit c.valRatio x y).2.2.2 draws = .ok (st, errs) := by
  unfold eaFit at h
  simp only at h
  split at h
  · cases h
  · rename_i models hm
    exact ⟨models, hm, h⟩

/-- **C143.** LGBEnergyAware, first fit, not parallel: the energy unbalance a row is given in training is the one it is given in forecasting, so with a learner that reproduces
its training sets the forecasts of the training rows are the training targets, at all steps. -/
theorem C143_exact (E : Env) (hE : Interpolates E) (c : Cfg) (hc : c.parallel = false) (nT : ℕ) (x y : List Row) (draws : List (List ℕ)) (st : State) (errs : List Row)
    (h : eaFit E c fresh nT x y draws = .ok (st, errs)) (xs ys : List Row) (hxs : xs = (Split.trainValSplit c.valRatio x y).1) (hys : ys = (Split.trainValSplit c.valRatio x y).2.1)
    (hlen : xs.length = ys.length) (hp : ∀ i, SameWidth (xs.map (E.prune i))) (hs : ∀ k < c.nSingle, StepDet (E.prune k) xs ys k) :
    eaPredict E c st xs = .ok ((List.range xs.length).map (fun t => (List.range nT).map (at2 ys t))) := by
  obtain ⟨models, h1, h2⟩ := eaFit_inv E c fresh nT x y draws st errs h
  rw [← hxs, ← hys] at h1
  obtain ⟨new, p, h3, h4, _, h6, _, h8, _⟩ := hybridFit_inv _ E c _ nT _ _ draws st errs h2
  have hst : st.models = models ++ new := by rw [h4, hc]; simp
  have hn : c.nSingle = nT := by
    unfold eaPredict at h8
    split at h8
    · cases h8
    · by_cases hcc : c.nSingle = st.nTargets
      · rw [hcc, h6]
      · rw [if_neg hcc] at h8; cases h8
  have hrow : ∀ t < xs.length, eaRow E st.models c.nSingle 0 0 (xs.getD t []) = .ok ((List.range nT).map (at2 ys t)) := by
    intro t ht
    have := eaFitLoop_exact E hE nT xs ys hlen hp c.nSingle 0 [] (xs.map (fun _ => 0)) models rfl (by simp) (fun j _ hj => hs j (by omega)) h1 new t ht
    rw [← hst] at this
    have h0 : (xs.map (fun _ => (0 : ℚ))).getD t 0 = 0 := by
      apply getD_of_getElem?
      rw [List.getElem?_map, List.getElem?_eq_getElem ht]; rfl
    rw [h0] at this
    rw [this, hn]
    simp
  unfold eaPredict
  have hm : xs.mapM (fun r => eaRow E st.models c.nSingle 0 0 r) = .ok ((List.range xs.length).map (fun t => (List.range nT).map (at2 ys t))) := by
    have hx : xs = (List.range xs.length).map (fun t => xs.getD t []) := by
      apply List.ext_getElem?
      intro i
      by_cases hi : i < xs.length
      · rw [List.getElem?_map, List.getElem?_range hi, Option.map_some, List.getD_eq_getElem?_getD, List.getElem?_eq_getElem hi]; rfl
      · rw [List.getElem?_eq_none (by omega), List.getElem?_eq_none (by simpa using hi)]
    have key : (List.range xs.length).mapM (fun t => eaRow E st.models c.nSingle 0 0 (xs.getD t [])) = .ok ((List.range xs.length).map (fun t => (List.range nT).map (at2 ys t))) :=
      mapM_ok _ _ _ (fun t ht => hrow t (List.mem_range.1 ht))
    conv_lhs => rw [hx]
    rw [List.mapM_map]
    exact key
  rw [hm]
  simp only
  rw [if_pos (by rw [h6, hn])]

/-- **C144.** Defect: LGBEnergyAware cannot be fitted unless there is a single model for every step: `n_single < number of targets` always raises, though the base class handles it. -/
theorem C144_needs_all_single (E : Env) (c : Cfg) (old : State) (nT : ℕ) (x y : List Row) (draws : List (List ℕ)) (hn : c.nSingle ≠ nT) :
    ∃ e, eaFit E c old nT x y draws = .error e := by
  cases hf : eaFit E c old nT x y draws with
  | error e => exact ⟨e, rfl⟩
  | ok r =>
    exfalso
    obtain ⟨models, _, h2⟩ := eaFit_inv E c old nT x y draws r.1 r.2 hf
    obtain ⟨_, _, _, _, _, h6, _, h8, _⟩ := hybridFit_inv _ E c _ nT _ _ draws r.1 r.2 h2
    unfold eaPredict at h8
    split at h8
    · cases h8
    · rw [h6, if_neg hn] at h8; cases h8

theorem split_mem (v : Option ℚ) (x y : List Row) : (∀ r ∈ (Split.trainValSplit v x y).1, r ∈ x) ∧ (∀ r ∈ (Split.trainValSplit v x y).2.2.1, r ∈ x) := by
  unfold Split.trainValSplit
  cases v with
  | none => exact ⟨fun _ h => h, fun _ h => h⟩
  | some q => exact ⟨fun _ h => List.mem_of_mem_take h, fun _ h => List.mem_of_mem_drop h⟩

/-- **C144.** Defect: with `parallel` and two or more steps it cannot be fitted either: `super().fit` replaces the models by models without the unbalance feature. `xv` are the rows
on which errors would be measured. -/
theorem C144_parallel (E : Env) (c : Cfg) (hc : c.parallel = true) (h2s : 2 ≤ c.nSingle) (old : State) (nT : ℕ) (x y : List Row) (draws : List (List ℕ))
    (hw : SameWidth (x.map (E.prune 1)))
    (hne : (Split.trainValSplit c.valRatio (Split.trainValSplit c.valRatio x y).2.2.1 (Split.trainValSplit c.valRatio x y).2.2.2).2.2.1 ≠ []) :
    ∃ e, eaFit E c old nT x y draws = .error e := by
  cases hf : eaFit E c old nT x y draws with
  | error e => exact ⟨e, rfl⟩
  | ok res =>
    exfalso
    obtain ⟨models, _, h2⟩ := eaFit_inv E c old nT x y draws res.1 res.2 hf
    obtain ⟨new, p, h3, h4, _, h6, _, h8, _⟩ := hybridFit_inv _ E c _ nT _ _ draws res.1 res.2 h2
    set xv := (Split.trainValSplit c.valRatio x y).2.2.1 with hxv
    set yv := (Split.trainValSplit c.valRatio x y).2.2.2 with hyv
    have hmodels : res.1.models = new := by rw [h4, hc]; simp
    obtain ⟨hnT, _, hni⟩ := fitSingles_inv E _ _ _ _ new h3
    obtain ⟨m, hm1, hm2⟩ := hni 1 (by omega)
    obtain ⟨_, a, ha, hwid⟩ := fitReg_ok E _ m hm2
    have hax : ∃ r ∈ x, a.1 = E.prune 1 r := by
      have h1 : a.1 ∈ ((Split.trainValSplit c.valRatio xv yv).1.map (E.prune 1)) := by
        unfold singleSet at ha
        exact (List.of_mem_zip (show (a.1, a.2) ∈ _ from ha)).1
      obtain ⟨r, hr, hre⟩ := List.mem_map.1 h1
      exact ⟨r, (split_mem c.valRatio x y).2 r ((split_mem c.valRatio xv yv).1 r hr), hre.symm⟩
    obtain ⟨r0, hr0, hra⟩ := hax
    obtain ⟨r, hr⟩ := List.exists_mem_of_ne_nil _ hne
    have hrx : r ∈ x := (split_mem c.valRatio x y).2 r ((split_mem c.valRatio xv yv).2 r hr)
    have hbad : ∀ e, ∃ er, eaRow E new (c.nSingle - 1) 1 e r = .error er := by
      intro e
      obtain ⟨k, hk⟩ : ∃ k, c.nSingle - 1 = k + 1 := ⟨c.nSingle - 2, by omega⟩
      rw [hk]
      unfold eaRow
      rw [hm1]
      have : predReg m (eaFeat E 1 e r) = .error .valueError := by
        unfold predReg eaFeat
        rw [if_neg]
        rw [hwid, hra, List.length_append]
        have := hw _ (List.mem_map_of_mem hrx) _ (List.mem_map_of_mem hr0)
        simp only [Nat.zero_lt_one, if_true, List.length_singleton]
        omega
      simp only [this]
      exact ⟨_, rfl⟩
    have hbad0 : ∃ er, eaRow E new c.nSingle 0 0 r = .error er := by
      obtain ⟨k, hk⟩ : ∃ k, c.nSingle = k + 1 := ⟨c.nSingle - 1, by omega⟩
      have hbad' : ∀ e, ∃ er, eaRow E new k 1 e r = .error er := by
        intro e; have := hbad e; rwa [show c.nSingle - 1 = k by omega] at this
      rw [hk]
      unfold eaRow
      cases new[0]? with
      | none => exact ⟨_, rfl⟩
      | some m0 =>
        simp only
        split
        · rename_i p q _ _
          obtain ⟨er, her⟩ := hbad' (0 + (q - p))
          rw [her]
          exact ⟨_, rfl⟩
        · exact ⟨_, rfl⟩
    unfold eaPredict at h8
    rw [hmodels] at h8
    obtain ⟨er, her⟩ := mapM_error _ _ r hr hbad0
    rw [her] at h8
    cases h8

theorem eaRow_prefix (E : Env) (models tail : List Reg) (k : ℕ) : ∀ (i : ℕ) (e : ℚ) (r : Row), i + k ≤ models.length → eaRow E (models ++ tail) k i e r = eaRow E models k i e r := by
  induction k with
  | zero => intro i e r _; rfl
  | succ k ih =>
    intro i e r h
    unfold eaRow
    rw [List.getElem?_append_left (by omega)]
    cases models[i]? with
    | none => rfl
    | some m =>
      simp only
      split
      · rw [ih (i + 1) _ r (by omega)]
      · rfl

/-- **C145.** Defect: fitting LGBEnergyAware again (not parallel) changes no forecast, whatever the new data. -/
theorem C145_refit_no_effect (E : Env) (c : Cfg) (hc : c.parallel = false) (old : State) (hold : c.nSingle ≤ old.models.length) (nT : ℕ) (hT : old.nTargets = nT) (x y : List Row)
    (draws : List (List ℕ)) (st : State) (errs : List Row) (h : eaFit E c old nT x y draws = .ok (st, errs)) (z : List Row) : eaPredict E c st z = eaPredict E c old z := by
  obtain ⟨models, h1, h2⟩ := eaFit_inv E c old nT x y draws st errs h
  obtain ⟨new, p, _, h4, _, h6, _, _, _⟩ := hybridFit_inv _ E c _ nT _ _ draws st errs h2
  obtain ⟨new', h7, _⟩ := eaFitLoop_prefix E nT _ _ _ _ _ _ _ h1
  have hst : st.models = old.models ++ (new' ++ new) := by rw [h4, hc]; simp [h7]
  unfold eaPredict
  rw [hst, h6, hT]
  have : (fun r => eaRow E (old.models ++ (new' ++ new)) c.nSingle 0 0 r) = fun r => eaRow E old.models c.nSingle 0 0 r := by
    funext r
    exact eaRow_prefix E old.models _ c.nSingle 0 0 r (by omega)
  rw [this]

/-- **C146.** Errors for the quantiles: LGBMHybrid measures them on the last `⌊n ratio⌋` rows; LGBEnergyAware (Defect) splits twice and has only `⌊⌊n ratio⌋ ratio⌋` of them. -/
theorem C146_error_rows (E : Env) (c : Cfg) (r : ℚ) (hr : c.valRatio = some r) (h0 : 0 ≤ r) (h1 : r ≤ 1) (old : State) (nT : ℕ) (x y : List Row) (hxy : x.length = y.length)
    (draws : List (List ℕ)) (st : State) (errs : List Row) :
    (hybridFit hybridPredict E c old nT x y draws = .ok (st, errs) → (errs.length : ℤ) = ⌊(x.length : ℚ) * r⌋) ∧
    (eaFit E c old nT x y draws = .ok (st, errs) → (errs.length : ℤ) = ⌊((⌊(x.length : ℚ) * r⌋ : ℤ) : ℚ) * r⌋) := by
  have hP : ∀ (P : Env → Cfg → State → List Row → Except PyErr (List Row)), (∀ st x p, P E c st x = .ok p → p.length = x.length) → ∀ (old : State) (x y : List Row), x.length = y.length →
      hybridFit P E c old nT x y draws = .ok (st, errs) → (errs.length : ℤ) = ⌊(x.length : ℚ) * r⌋ := by
    intro P hPl old x y hxy h
    obtain ⟨new, p, _, _, _, _, _, h8, h9⟩ := hybridFit_inv P E c old nT x y draws st errs h
    obtain ⟨xt, yt, xv, yv, hsp, _, _, hl1, hl2, _⟩ := Split.C12_tail_split r h0 h1 x y hxy
    rw [hr, hsp] at h8 h9
    have := hPl _ _ _ h8
    rw [h9, List.length_zipWith, this]
    simp only
    rw [hl2, Nat.min_self, hl1]
  constructor
  · apply hP
    · intro st x p hp
      unfold hybridPredict at hp
      split at hp
      · cases hp
      · rename_i p' hp'
        by_cases hcc : c.nSingle + st.nMulti = st.nTargets
        · rw [if_pos hcc] at hp; cases hp; exact (mapM_inv _ _ _ hp').1
        · rw [if_neg hcc] at hp; cases hp
    · exact hxy
  · intro h
    obtain ⟨models, _, h2⟩ := eaFit_inv E c old nT x y draws st errs h
    obtain ⟨xt, yt, xv, yv, hsp, _, _, hl1, hl2, _⟩ := Split.C12_tail_split r h0 h1 x y hxy
    rw [hr, hsp] at h2
    have := hP eaPredict (by
      intro st x p hp
      unfold eaPredict at hp
      split at hp
      · cases hp
      · rename_i p' hp'
        by_cases hcc : c.nSingle = st.nTargets
        · rw [if_pos hcc] at hp; cases hp; exact (mapM_inv _ _ _ hp').1
        · rw [if_neg hcc] at hp; cases hp) _ _ _ hl2.symm h2
    rw [this, ← hl1]
    rfl

/-- **C146.** Without `val_ratio` errors are those on the training rows: a learner that reproduces its training set gets an error distribution concentrated at zero. -/
theorem C146_in_sample (E : Env) (hE : Interpolates E) (c : Cfg) (hr : c.valRatio = none) (old : State) (hold : old.models = [] ∨ c.parallel = true) (x y : List Row)
    (draws : List (List ℕ)) (st : State) (errs : List Row) (h : hybridFit hybridPredict E c old c.nSingle x y draws = .ok (st, errs)) (hlen : x.length = y.length)
    (hw : SameWidth x) (hp : ∀ i, SameWidth (x.map (E.prune i))) (hdraw : ∀ i, ∀ t ∈ draws.getD i [], t < x.length) (hy : ∀ r ∈ y, r.length = c.nSingle)
    (hs : ∀ k < c.nSingle, StepDet (E.prune k) x y k) : errs.length = x.length ∧ ∀ e ∈ errs, ∀ a ∈ e, a = 0 := by
  obtain ⟨new, p, _, _, _, _, _, h8, h9⟩ := hybridFit_inv _ E c old c.nSingle x y draws st errs h
  rw [hr] at h8 h9
  simp only [Split.trainValSplit] at h8 h9
  unfold hybridPredict at h8
  have hp8 : x.mapM (hybridRow E c st) = .ok p := by
    split at h8
    · cases h8
    · rename_i p' hp'
      split_ifs at h8
      cases h8
      exact hp'
  obtain ⟨hpl, hpe⟩ := mapM_inv _ _ _ hp8
  refine ⟨by rw [h9, List.length_zipWith]; omega, ?_⟩
  intro e he a ha
  rw [h9] at he
  obtain ⟨t, ht⟩ := List.mem_iff_getElem?.1 he
  rw [List.getElem?_zipWith] at ht
  cases hyt : y[t]? with
  | none => rw [hyt] at ht; cases ht
  | some yr =>
    have htl : t < y.length := (List.getElem?_eq_some_iff.1 hyt).1
    have htx : t < x.length := by omega
    obtain ⟨row, hrow, hrl, hre⟩ := C141_exact E hE c old hold c.nSingle x y draws st errs h x y (by rw [hr]; rfl) (by rw [hr]; rfl) hlen hw hp hdraw hs (fun k h1 h2 => by omega) t htx
    have hxt : x[t]? = some (x.getD t []) := by rw [List.getD_eq_getElem?_getD, List.getElem?_eq_getElem htx]; rfl
    obtain ⟨b, hb1, hb2⟩ := hpe t _ hxt
    rw [hrow] at hb1
    cases hb1
    rw [hyt, hb2] at ht
    simp only [Option.some.injEq] at ht
    subst ht
    unfold errRow at ha
    obtain ⟨k, hk⟩ := List.mem_iff_getElem?.1 ha
    rw [List.getElem?_zipWith] at hk
    have hyl : yr.length = c.nSingle := hy yr (List.mem_of_getElem? hyt)
    cases hyk : yr[k]? with
    | none => rw [hyk] at hk; cases hk
    | some v =>
      have hkl : k < c.nSingle := by have := (List.getElem?_eq_some_iff.1 hyk).1; omega
      have h1 := hre k hkl (Or.inl hkl)
      have h2 : row[k]? = some (row.getD k 0) := by rw [List.getD_eq_getElem?_getD, List.getElem?_eq_getElem (by omega)]; rfl
      rw [hyk, h2, h1] at hk
      simp only [Option.some.injEq] at hk
      have h3 : at2 y t k = v := by
        unfold at2
        rw [getD_of_getElem? y t [] yr hyt, getD_of_getElem? yr k 0 v hyk]
      rw [h3, sub_self] at hk
      exact hk.symm

/-- C146 (values): the errors kept by `fit` are the targets of the validation rows minus the forecasts the fitted object gives for those rows. -/
theorem C146_error_values (E : Env) (c : Cfg) (old : State) (nT : ℕ) (x y : List Row) (draws : List (List ℕ)) (st : State) (errs : List Row)
    (h : hybridFit hybridPredict E c old nT x y draws = .ok (st, errs)) :
    ∃ p, hybridPredict E c st (Split.trainValSplit c.valRatio x y).2.2.1 = .ok p ∧
      ∀ (t : ℕ) (u v : Row), (Split.trainValSplit c.valRatio x y).2.2.2[t]? = some u → p[t]? = some v →
        ∃ e, errs[t]? = some e ∧ ∀ (k : ℕ) (a b : ℚ), u[k]? = some a → v[k]? = some b → e[k]? = some (a - b) := by
  obtain ⟨new, p, -, -, -, -, -, h8, h9⟩ := hybridFit_inv _ E c old nT x y draws st errs h
  refine ⟨p, h8, ?_⟩
  intro t u v hu hv
  refine ⟨errRow u v, by rw [h9]; exact zipWith_getElem? _ _ _ _ _ _ hu hv, ?_⟩
  intro k a b ha hb
  exact zipWith_getElem? _ _ _ _ _ _ ha hb

/-- C143 (unbalance): a row of forecasts of `LGBEnergyAware` comes with a running unbalance: nothing for the first step, and after each step the forecast with the controls of that step
switched off minus the forecast is added. Every step but the first gets its pruned features and the unbalance so far. -/
theorem C143_unbalance (E : Env) (models : List Reg) (k : ℕ) : ∀ (i : ℕ) (e : ℚ) (r row : Row), eaRow E models k i e r = .ok row →
    row.length = k ∧ ∃ es : ℕ → ℚ, es i = e ∧ ∀ j < k, ∃ m p q, models[i + j]? = some m ∧ row[j]? = some p ∧
      predReg m (if i + j = 0 then E.prune 0 r else E.prune (i + j) r ++ [es (i + j)]) = .ok p ∧
      predReg m (if i + j = 0 then E.off 0 (E.prune 0 r) else E.off (i + j) (E.prune (i + j) r) ++ [es (i + j)]) = .ok q ∧
      es (i + j + 1) = es (i + j) + (q - p) := by
  induction k with
  | zero =>
    intro i e r row h
    cases h
    exact ⟨rfl, fun _ => e, rfl, fun j hj => absurd hj (by omega)⟩
  | succ k ih =>
    intro i e r row h
    unfold eaRow at h
    cases hm : models[i]? with
    | none => rw [hm] at h; cases h
    | some m =>
      rw [hm] at h
      simp only at h
      cases hp : predReg m (eaFeat E i e r) with
      | error er => rw [hp] at h; cases h
      | ok p =>
        cases hq : predReg m (eaOff E i e r) with
        | error er => rw [hp, hq] at h; cases h
        | ok q =>
          rw [hp, hq] at h
          simp only at h
          cases hr : eaRow E models k (i + 1) (e + (q - p)) r with
          | error er => rw [hr] at h; cases h
          | ok rest =>
            rw [hr] at h
            cases h
            obtain ⟨hl, es, he, hes⟩ := ih (i + 1) _ r rest hr
            refine ⟨by simp [hl], fun n => if n = i then e else es n, by simp, ?_⟩
            intro j hj
            cases j with
            | zero =>
              refine ⟨m, p, q, by simpa using hm, by simp, ?_, ?_, ?_⟩
              · rw [← hp]
                unfold eaFeat
                by_cases h0 : i = 0
                · subst h0; simp
                · simp [h0, Nat.pos_of_ne_zero h0]
              · rw [← hq]
                unfold eaOff
                by_cases h0 : i = 0
                · subst h0; simp
                · simp [h0, Nat.pos_of_ne_zero h0]
              · simp [he]
            | succ j =>
              obtain ⟨m', p', q', a1, a2, a3, a4, a5⟩ := hes j (by omega)
              have e1 : i + 1 + j = i + (j + 1) := by omega
              rw [e1] at a1 a3 a4 a5
              have n1 : ¬ i + (j + 1) = i := by omega
              have n2 : ¬ i + (j + 1) + 1 = i := by omega
              refine ⟨m', p', q', a1, by simpa using a2, ?_, ?_, ?_⟩
              · simpa [n1] using a3
              · simpa [n1] using a4
              · simpa only [n1, n2, if_false] using a5

end PyF.Hybrid
