import Verif.Qrf.Lemmas
import Verif.Hybrid.Lemmas

namespace PyF.Qrf

open PyF

variable {R P D : Type}

theorem forestFit_ok (E : Env R P D) (pars : D) (x : List R) (y : List (List ℚ)) (w : Option (List ℚ)) (F : Forest R) (h : forestFit E pars x y w = .ok F) :
    x ≠ [] ∧ F = E.train pars x y w ∧ ∀ l, w = some l → l.length = x.length := by
  unfold forestFit at h
  split_ifs at h with hx
  cases w with
  | none => simp only at h; cases h; exact ⟨hx, rfl, fun l hl => by cases hl⟩
  | some l =>
    simp only at h
    split_ifs at h with hl
    cases h
    exact ⟨hx, rfl, fun l' e => by cases e; exact hl⟩

theorem forestFit_eq (E : Env R P D) (pars : D) (x : List R) (y : List (List ℚ)) (w : Option (List ℚ)) (hx : x ≠ []) (hw : ∀ l, w = some l → l.length = x.length) :
    forestFit E pars x y w = .ok (E.train pars x y w) := by
  unfold forestFit
  rw [if_neg hx]
  cases w with
  | none => rfl
  | some l => simp only; rw [if_pos (hw l rfl)]

theorem cols_one (y : List (List ℚ)) (t j : ℕ) (hy : ∀ r ∈ y, r.length = t) (hj : j < t) : cols y j 1 = y.map (fun r => [r.getD j 0]) := by
  unfold cols
  apply List.map_congr_left
  intro r hr
  have := hy r hr
  rw [List.getD_eq_getElem _ _ (by omega), List.take_one_drop_eq_of_lt_length (by omega)]
  rfl

theorem cols_rest (y : List (List ℚ)) (t s : ℕ) (hy : ∀ r ∈ y, r.length = t) : cols y s (t - s) = y.map (fun r => r.drop s) := by
  unfold cols
  apply List.map_congr_left
  intro r hr
  have := hy r hr
  rw [List.take_of_length_le]
  rw [List.length_drop]; omega

theorem split_lengths (v : Option ℚ) (x : List R) (y : List (List ℚ)) (h : y.length = x.length) :
    (Split.trainValSplit v x y).2.1.length = (Split.trainValSplit v x y).1.length := by
  unfold Split.trainValSplit
  cases v with
  | none => simp [h]
  | some r => simp [Split.sliceTo, Split.bound, h]

theorem split_mem (v : Option ℚ) (x : List R) (y : List (List ℚ)) (r : List ℚ) (h : r ∈ (Split.trainValSplit v x y).2.1) : r ∈ y := by
  unfold Split.trainValSplit at h
  cases v with
  | none => exact h
  | some q => exact List.mem_of_mem_take h

theorem fit_le (E : Env R P D) (c : Cfg) (pars parsG : D) (t : ℕ) (x : List R) (y : List (List ℚ)) (w : Option (List ℚ)) (s : State R)
    (h : fit E c pars parsG t x y w = .ok s) : c.nSingle ≤ t := by
  by_contra hlt
  obtain ⟨e, he⟩ := Hybrid.mapM_error (fitSingle E pars t (Split.trainValSplit c.valRatio x y).1 (Split.trainValSplit c.valRatio x y).2.1 w)
    (List.range c.nSingle) t (by simp; omega) ⟨.indexError, by simp [fitSingle]⟩
  unfold fit at h
  rw [he] at h
  cases h

theorem fit_fitted (E : Env R P D) (c : Cfg) (pars parsG : D) (t : ℕ) (x : List R) (y : List (List ℚ)) (w : Option (List ℚ)) (s : State R)
    (hE : Outs E) (hd : Data x y t) (h : fit E c pars parsG t x y w = .ok s) : Fitted c s t (own E c pars x y w) (glob E c parsG x y) := by
  have hle := fit_le E c pars parsG t x y w s h
  unfold fit at h
  cases hm : (List.range c.nSingle).mapM (fitSingle E pars t (Split.trainValSplit c.valRatio x y).1 (Split.trainValSplit c.valRatio x y).2.1 w) with
  | error e => rw [hm] at h; cases h
  | ok ms =>
    rw [hm] at h
    simp only at h
    have hrow : ∀ r ∈ yTrain c x y, r.length = t := fun r hr => hd.2 r (split_mem _ _ _ _ hr)
    have hlen : (yTrain c x y).length = (xTrain c x y).length := split_lengths _ _ _ hd.1
    have hsing : ∀ i, i < c.nSingle → ms[i]? = some (own E c pars x y w i) ∧ (own E c pars x y w i).outs = 1 := by
      intro i hi
      obtain ⟨b, hb, hbi⟩ := (Hybrid.mapM_inv _ _ _ hm).2 i i (by simp [hi])
      unfold fitSingle at hb
      rw [if_neg (by omega)] at hb
      obtain ⟨hx, hF, -⟩ := forestFit_ok _ _ _ _ _ _ hb
      have hc : cols (Split.trainValSplit c.valRatio x y).2.1 i 1 = (yTrain c x y).map (fun r => [r.getD i 0]) :=
        cols_one _ t i hrow (by omega)
      rw [hc] at hF
      rw [hbi, hF]
      refine ⟨rfl, ?_⟩
      unfold own
      apply hE
      · intro h0
        have : (xTrain c x y).length = 0 := by rw [← hlen]; simpa using h0
        exact hx (by rw [List.map_eq_nil_iff]; exact List.eq_nil_of_length_eq_zero this)
      · intro r hr
        obtain ⟨r', -, rfl⟩ := List.mem_map.1 hr
        rfl
    cases hg : fitMulti E parsG c.nSingle t (Split.trainValSplit c.valRatio x y).1 (Split.trainValSplit c.valRatio x y).2.1 with
    | error e => rw [hg] at h; cases h
    | ok g =>
      rw [hg] at h
      simp only at h
      cases h
      refine ⟨fun i hi => (hsing i hi).1, fun i hi => (hsing i hi).2, rfl, rfl, ?_, hle⟩
      intro hpos
      unfold fitMulti at hg
      rw [if_pos hpos] at hg
      cases hf : forestFit E parsG (Split.trainValSplit c.valRatio x y).1 (cols (Split.trainValSplit c.valRatio x y).2.1 c.nSingle (t - c.nSingle)) none with
      | error e => rw [hf] at hg; cases hg
      | ok F =>
        rw [hf] at hg
        simp only at hg
        cases hg
        obtain ⟨hx, hF, -⟩ := forestFit_ok _ _ _ _ _ _ hf
        have hc : cols (Split.trainValSplit c.valRatio x y).2.1 c.nSingle (t - c.nSingle) = (yTrain c x y).map (fun r => r.drop c.nSingle) :=
          cols_rest _ t _ hrow
        rw [hc] at hF
        rw [hF]
        refine ⟨rfl, ?_⟩
        apply hE
        · intro h0
          have : (xTrain c x y).length = 0 := by rw [← hlen]; simpa using h0
          exact hx (List.eq_nil_of_length_eq_zero this)
        · intro r hr
          obtain ⟨r', hr', rfl⟩ := List.mem_map.1 hr
          rw [List.length_drop, hrow r' hr']

theorem want_level (E : Env R P D) (c : Cfg) (pars parsG : D) (x : List R) (y : List (List ℚ)) (w : Option (List ℚ)) (l : List ℚ) (r : R) (j k : ℕ) :
    want E c (own E c pars x y w) (glob E c parsG x y) (.levels l) r j k = level E c pars parsG x y w r j (l.getD k 0) := rfl

variable [Inhabited R]

/-! ### C177: quantile forecasts -/

/-- C177. After a fit, the quantile frame of any rows has at (row, target, level) the quantile of the forest of that step, unless there are single-step forests,
exactly one remaining step and at least two levels; then the call raises ValueError. -/
theorem C177_quantiles (E : Env R P D) (c : Cfg) (pars parsG : D) (t : ℕ) (x : List R) (y : List (List ℚ)) (w : Option (List ℚ)) (s : State R)
    (hE : Outs E) (hd : Data x y t) (ht : 1 ≤ t) (h : fit E c pars parsG t x y w = .ok s) (rows : List R) (l : List ℚ) (hl : l ≠ []) :
    (1 ≤ c.nSingle ∧ t = c.nSingle + 1 ∧ 2 ≤ l.length → predict E c s rows ⟨some (.levels l), none⟩ = .error .valueError) ∧
    (¬ (1 ≤ c.nSingle ∧ t = c.nSingle + 1 ∧ 2 ≤ l.length) → ∃ f, predict E c s rows ⟨some (.levels l), none⟩ = .ok (.quant rows.length t l.length f) ∧
      ∀ i j k, i < rows.length → j < t → k < l.length → f i j k = level E c pars parsG x y w (rows.getD i default) j (l.getD k 0)) := by
  have hF := fit_fitted E c pars parsG t x y w s hE hd h
  have hl1 : 1 ≤ l.length := List.length_pos_iff.2 hl
  have hw : wd (forestArg (some (QK.levels l))) = l.length := rfl
  constructor
  · rintro ⟨h1, h2, h3⟩
    have hs := singles_eq E c s t _ _ hF rows ⟨some (.levels l), none⟩ rfl hl1
    obtain ⟨hg1, hg2⟩ := hF.multi (by omega)
    have hone := predMulti_one (glob E c parsG x y) rows (.levels l) h3 (by rw [hg2]; omega)
    unfold predict
    rw [hs]
    have hmu : multis s rows (⟨some (.levels l), none⟩ : Kw P) = .ok [.d3 rows.length 1 l.length
        (fun i _ k => vals (glob E c parsG x y) (.levels l) (rows.getD i default) 0 k)] := by
      unfold multis
      rw [hF.nMulti, if_pos (by omega), hg1]
      simp only [forestArg]
      rw [hone]; rfl
    rw [hmu]
    simp only
    obtain ⟨m, hm⟩ : ∃ m, c.nSingle = m + 1 := ⟨c.nSingle - 1, by omega⟩
    have hne : l.length ≠ 1 := by omega
    rw [hm, List.range_succ_eq_map]
    simp [dstack, toA3, forestArg, wd, Ne.symm hne]
  · intro hno
    by_cases h1 : t - c.nSingle = 1 ∧ 2 ≤ l.length
    · -- a single target forecast by the global forest
      have h0 : c.nSingle = 0 := by
        by_contra hne
        exact hno ⟨by omega, by omega, h1.2⟩
      have ht1 : t = 1 := by omega
      obtain ⟨hg1, hg2⟩ := hF.multi (by omega)
      have hone := predMulti_one (glob E c parsG x y) rows (.levels l) h1.2 (by rw [hg2]; omega)
      have hs := singles_eq E c s t _ _ hF rows ⟨some (.levels l), none⟩ rfl hl1
      have hmu : multis s rows (⟨some (.levels l), none⟩ : Kw P) = .ok [.d3 rows.length 1 l.length
          (fun i _ k => vals (glob E c parsG x y) (.levels l) (rows.getD i default) 0 k)] := by
        unfold multis
        rw [hF.nMulti, if_pos (by omega), hg1]
        simp only [forestArg]
        rw [hone]; rfl
      refine ⟨fun i j k => catF [⟨rows.length, 1, l.length, fun i _ k => vals (glob E c parsG x y) (.levels l) (rows.getD i default) 0 k⟩] i
        ((j * l.length + k) % 1) ((j * l.length + k) / 1), ?_, ?_⟩
      · unfold predict
        rw [hs, hmu]
        simp only
        rw [h0]
        simp [dstack, toA3, mkFrame, quantFrame, hF.nTargets, ht1]
      · intro i j k hi hj hk
        have : j = 0 := by omega
        subst this
        simp [level, h0, vals, catF, hk]
    · obtain ⟨A, hAn, hAa, hAb, hp, hv⟩ := stacked E c s t _ _ hF rows ⟨some (.levels l), none⟩ rfl ht hl1
        (by intro h2; simp only [hw]; by_contra h3; exact h1 ⟨h2, by omega⟩)
      rw [hp]
      simp only [hw] at hAa hv
      refine ⟨fun i j k => A.f i ((j * l.length + k) % A.a) ((j * l.length + k) / A.a), ?_, ?_⟩
      · simp only [mkFrame, quantFrame, hF.nTargets, hAn, hAa, hAb, true_and, if_true]
      · intro i j k hi hj hk
        show A.f _ _ _ = _
        rw [hAa, Nat.mul_comm j, Nat.mul_add_mod, Nat.mod_eq_of_lt hk, Nat.mul_add_div (by omega), Nat.div_eq_of_lt hk, Nat.add_zero, hv i k j hi hk hj]
        exact want_level ..

/-! ### C178: point forecasts -/

/-- C178. With several targets or one row, the point frame has at (row, target) the mean of the forest of that step. -/
theorem C178_point (E : Env R P D) (c : Cfg) (pars parsG : D) (t : ℕ) (x : List R) (y : List (List ℚ)) (w : Option (List ℚ)) (s : State R)
    (hE : Outs E) (hd : Data x y t) (h : fit E c pars parsG t x y w = .ok s) (rows : List R) (hs : 2 ≤ t ∨ t = 1 ∧ rows.length = 1) :
    ∃ f, predict E c s rows ⟨none, none⟩ = .ok (.point rows.length t f) ∧
      ∀ i j, i < rows.length → j < t → f i j = centre E c pars parsG x y w (rows.getD i default) j := by
  have hF := fit_fitted E c pars parsG t x y w s hE hd h
  obtain ⟨A, hAn, hAa, hAb, hp, hv⟩ := stacked E c s t _ _ hF rows ⟨none, none⟩ rfl (by omega) (by simp [forestArg, wd]) (by simp [forestArg, wd])
  have hAa' : A.a = 1 := hAa
  rw [hp]
  refine ⟨fun i j => A.flat (i * t + j), ?_, ?_⟩
  · simp only [mkFrame, pointFrame, hF.nTargets, hAn, hAa', hAb]
    rw [if_pos]
    rcases hs with h2 | ⟨rfl, h2⟩
    · by_cases h1 : rows.length = 1
      · have : t ≠ 1 := by omega
        simp [Reshape.squeezeShape, Reshape.atleast2d, h1, this]
      · have : t ≠ 1 := by omega
        simp [Reshape.squeezeShape, Reshape.atleast2d, h1, this]
    · simp [Reshape.squeezeShape, Reshape.atleast2d, h2]
  · intro i j hi hj
    show A.f _ _ _ = _
    rw [hAa', hAb, Nat.one_mul, Nat.mod_one, Nat.mul_comm i, Nat.mul_add_div (by omega), Nat.div_eq_of_lt hj, Nat.add_zero, Nat.mul_add_mod, Nat.mod_eq_of_lt hj,
      hv i 0 j hi (by simp [forestArg, wd]) hj]
    rfl

/-- C178. With one target, any number of rows other than one raises ValueError. -/
theorem C178_one_target (E : Env R P D) (c : Cfg) (pars parsG : D) (x : List R) (y : List (List ℚ)) (w : Option (List ℚ)) (s : State R)
    (hE : Outs E) (hd : Data x y 1) (h : fit E c pars parsG 1 x y w = .ok s) (rows : List R) (hs : rows.length ≠ 1) :
    predict E c s rows ⟨none, none⟩ = .error .valueError := by
  have hF := fit_fitted E c pars parsG 1 x y w s hE hd h
  obtain ⟨A, hAn, hAa, hAb, hp, hv⟩ := stacked E c s 1 _ _ hF rows ⟨none, none⟩ rfl (by omega) (by simp [forestArg, wd]) (by simp [forestArg, wd])
  have hAa' : A.a = 1 := hAa
  rw [hp]
  simp only [mkFrame, pointFrame, hF.nTargets, hAn, hAa', hAb]
  rw [if_neg]
  simp [Reshape.squeezeShape, Reshape.atleast2d, hs, Ne.symm hs]

/-! ### C179: keywords of predict -/

/-- C179. `predict(x, quantiles='mean')` raises for every fitted object. -/
theorem C179_mean_word (E : Env R P D) (c : Cfg) (pars parsG : D) (t : ℕ) (x : List R) (y : List (List ℚ)) (w : Option (List ℚ)) (s : State R)
    (hE : Outs E) (hd : Data x y t) (ht : 1 ≤ t) (h : fit E c pars parsG t x y w = .ok s) (rows : List R) :
    predict E c s rows ⟨some .word, none⟩ = .error .typeError := by
  have hF := fit_fitted E c pars parsG t x y w s hE hd h
  unfold predict
  by_cases h0 : c.nSingle = 0
  · have h1 : singles E c s rows (⟨some .word, none⟩ : Kw P) = .ok [] := by simp [singles, h0]; rfl
    have h2 : multis s rows (⟨some .word, none⟩ : Kw P) = .error .typeError := by
      obtain ⟨hg, -⟩ := hF.multi (by omega)
      unfold multis
      rw [hF.nMulti, if_pos (by omega), hg]
      rfl
    rw [h1, h2]
  · obtain ⟨m, hm⟩ : ∃ m, c.nSingle = m + 1 := ⟨c.nSingle - 1, by omega⟩
    have h1 : singles E c s rows (⟨some .word, none⟩ : Kw P) = .error .typeError := by
      simp only [singles, hm]
      rw [List.range_succ_eq_map, List.mapM_cons]
      have : stepPredict E s rows (forestArg (some .word)) E.period0 0 = .error .typeError := by
        unfold stepPredict
        rw [hF.models 0 (by omega)]
        rfl
      rw [this]; rfl
    rw [h1]

/-- C179. A period given to `predict` never changes a forecast: TypeError in parallel mode or with single-step forests, no effect otherwise. -/
theorem C179_period (E : Env R P D) (c : Cfg) (s : State R) (rows : List R) (q : Option QK) (p : P) :
    predict E c s rows ⟨q, some p⟩ = if c.parallel = true ∨ 1 ≤ c.nSingle then .error .typeError else predict E c s rows ⟨q, none⟩ := by
  unfold predict singles
  by_cases h : c.parallel = true ∨ 1 ≤ c.nSingle
  · have : (c.parallel || decide (0 < c.nSingle)) = true := by
      rcases h with h | h
      · simp [h]
      · have : 0 < c.nSingle := h
        simp [this]
    simp only [this, if_true, if_pos h]
  · have h0 : c.nSingle = 0 := by omega
    have : (c.parallel || decide (0 < c.nSingle)) = false := by
      have hp : c.parallel = false := by
        by_contra hp
        exact h (Or.inl (by simpa using hp))
      simp [hp, h0]
    rw [if_neg h]
    simp only [this]
    rw [h0]
    rfl

/-! ### C180: sample weights -/

omit [Inhabited R] in
/-- C180. Without single-step forests the weights have no effect, whatever their length. -/
theorem C180_no_effect (E : Env R P D) (c : Cfg) (pars parsG : D) (t : ℕ) (x : List R) (y : List (List ℚ)) (w w' : Option (List ℚ)) (h : c.nSingle = 0) :
    fit E c pars parsG t x y w = fit E c pars parsG t x y w' := by
  unfold fit
  rw [h]; rfl

omit [Inhabited R] in
/-- C180. With single-step forests, fit succeeds exactly when there is one weight per training row. -/
theorem C180_length (E : Env R P D) (c : Cfg) (pars parsG : D) (t : ℕ) (x : List R) (y : List (List ℚ)) (l : List ℚ) (h1 : 1 ≤ c.nSingle) (h2 : c.nSingle ≤ t)
    (hx : xTrain c x y ≠ []) :
    (l.length = (xTrain c x y).length → ∃ s, fit E c pars parsG t x y (some l) = .ok s) ∧
    (l.length ≠ (xTrain c x y).length → fit E c pars parsG t x y (some l) = .error .valueError) := by
  constructor
  · intro hlen
    have hx' : (Split.trainValSplit c.valRatio x y).1 ≠ [] := hx
    unfold fit
    rw [Boot.mapM_all_ok _ (fun i => E.train pars ((xTrain c x y).map (E.prune i E.period0)) (cols (yTrain c x y) i 1) (some l))]
    · simp only
      unfold fitMulti
      by_cases hp : 0 < t - c.nSingle
      · rw [if_pos hp, forestFit_eq E parsG _ _ none hx' (fun l hl => by cases hl)]
        exact ⟨_, rfl⟩
      · rw [if_neg hp]
        exact ⟨_, rfl⟩
    · intro i hi
      rw [List.mem_range] at hi
      unfold fitSingle
      rw [if_neg (by omega)]
      exact forestFit_eq _ _ _ _ _ (by simpa using hx') (fun l' e => by cases e; rw [List.length_map]; exact hlen)
  · intro hlen
    unfold fit
    obtain ⟨m, hm⟩ : ∃ m, c.nSingle = m + 1 := ⟨c.nSingle - 1, by omega⟩
    rw [hm, List.range_succ_eq_map, List.mapM_cons]
    have : fitSingle E pars t (Split.trainValSplit c.valRatio x y).1 (Split.trainValSplit c.valRatio x y).2.1 (some l) 0 = .error .valueError := by
      have hx' : (Split.trainValSplit c.valRatio x y).1 ≠ [] := hx
      have hlen' : l.length ≠ (Split.trainValSplit c.valRatio x y).1.length := hlen
      unfold fitSingle
      rw [if_neg (by omega)]
      simp [forestFit, hx', hlen']
    rw [this]; rfl

omit [Inhabited R] in
/-- C180. One weight per row of the data handed to `fit`, as in scikit-learn, is refused as soon as a validation set is split off. -/
theorem C180_validation (E : Env R P D) (c : Cfg) (pars parsG : D) (t : ℕ) (x : List R) (y : List (List ℚ)) (l : List ℚ) (h1 : 1 ≤ c.nSingle) (h2 : c.nSingle ≤ t)
    (hx : xTrain c x y ≠ []) (hv : (xTrain c x y).length < x.length) (hl : l.length = x.length) :
    fit E c pars parsG t x y (some l) = .error .valueError :=
  (C180_length E c pars parsG t x y l h1 h2 hx).2 (by omega)

/-- C180. The weights never reach the forecasts of the global model: those of the steps from `n_single` on. -/
theorem C180_global (E : Env R P D) (c : Cfg) (pars parsG : D) (t : ℕ) (x : List R) (y : List (List ℚ)) (w w' : Option (List ℚ)) (s s' : State R)
    (hE : Outs E) (hd : Data x y t) (h : fit E c pars parsG t x y w = .ok s) (h' : fit E c pars parsG t x y w' = .ok s') (rows : List R)
    (f f' : ℕ → ℕ → ℚ) (n n' k k' : ℕ) (hp : predict E c s rows ⟨none, none⟩ = .ok (.point n k f)) (hp' : predict E c s' rows ⟨none, none⟩ = .ok (.point n' k' f'))
    (i j : ℕ) (hi : i < rows.length) (hj : c.nSingle ≤ j) (hjt : j < t) : f i j = f' i j := by
  have hcase : 2 ≤ t ∨ t = 1 ∧ rows.length = 1 := by
    by_contra hno
    have ht : t = 1 := by omega
    subst ht
    have := C178_one_target E c pars parsG x y w s hE hd h rows (by omega)
    rw [this] at hp; cases hp
  obtain ⟨g, hg1, hg2⟩ := C178_point E c pars parsG t x y w s hE hd h rows hcase
  obtain ⟨g', hg1', hg2'⟩ := C178_point E c pars parsG t x y w' s' hE hd h' rows hcase
  rw [hg1] at hp; cases hp
  rw [hg1'] at hp'; cases hp'
  rw [hg2 i j hi hjt, hg2' i j hi hjt]
  simp [centre, Nat.not_lt.2 hj]

end PyF.Qrf
