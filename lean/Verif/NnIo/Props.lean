import Verif.NnIo.Model
import Verif.Hybrid.Lemmas
import Mathlib.Tactic.Ring
import Mathlib.Tactic.Linarith
import Mathlib.Tactic.FieldSimp

namespace PyF.NnIo

open PyF

/-! ### Specification -/

/-- A column that is to be normalised: not listed in `unnormalized_inputs`. -/
def IsNorm (c : Cfg) (k : String) : Prop := ∀ u, c.unnorm = some u → k ∉ u

instance (c : Cfg) (k : String) : Decidable (IsNorm c k) :=
  match h : c.unnorm with
  | none => isTrue (by intro u hu; rw [h] at hu; cases hu)
  | some u => if hk : k ∈ u then isFalse (fun hf => hf u h hk) else isTrue (by intro u' hu'; rw [h] at hu'; cases hu'; exact hk)

/-- The columns of a frame that are to be normalised, in its order. -/
def normCols (c : Cfg) (cols : List String) : List String := cols.filter (fun k => decide (IsNorm c k))

/-- The value of column `k` after normalisation with the rows `rows`. -/
def scaled (E : Env) (c : Cfg) (rows : List (String → ℚ)) (k : String) (z : ℚ) : ℚ :=
  if IsNorm c k then (z - if c.subtractMean then (rows.map (fun r => r k)).sum / rows.length else 0) / E.dev (rows.map (fun r => r k)) else z

/-- The vector made of a row, with the columns in the order `cols`. -/
def vec (E : Env) (c : Cfg) (rows : List (String → ℚ)) (cols : List String) (r : String → ℚ) : List ℚ := cols.map (fun k => scaled E c rows k (r k))

/-- The network trained on the frame `x`. -/
def trained (E : Env) (c : Cfg) (x : Frame) : List ℚ → List ℚ :=
  E.train ((Split.trainValSplit c.valRatio x.rows x.rows).1.map (vec E c x.rows x.cols))

/-! ### Lemmas -/

theorem toNorm_eq (c : Cfg) (cols : List String) : toNorm c cols = normCols c cols := by
  unfold toNorm normCols
  cases h : c.unnorm with
  | none => simp [IsNorm, h]
  | some u => simp [IsNorm, h]

theorem mem_toNorm (c : Cfg) (cols : List String) (k : String) : k ∈ toNorm c cols ↔ k ∈ cols ∧ IsNorm c k := by
  rw [toNorm_eq]; simp [normCols]

theorem normInputs_scaler (E : Env) (c : Cfg) (x y : Frame) (names : List String) :
    normInputs c (some (fitScaler E c x names)) y =
      if normCols c y.cols = names then .ok (y.rows.map (vec E c x.rows y.cols)) else .error .valueError := by
  unfold normInputs
  simp only [toNorm_eq, fitScaler]
  by_cases h : normCols c y.cols = names
  · rw [if_pos h, if_pos h]
    congr 1
    apply List.map_congr_left
    intro r _
    unfold vec
    apply List.map_congr_left
    intro k hk
    unfold scaled mean
    by_cases hn : IsNorm c k
    · have : k ∈ normCols c y.cols := by rw [← toNorm_eq]; exact (mem_toNorm c _ k).2 ⟨hk, hn⟩
      rw [if_pos this, if_pos hn, List.length_map]
    · have : k ∉ normCols c y.cols := by rw [← toNorm_eq]; exact fun h => hn ((mem_toNorm c _ k).1 h).2
      rw [if_neg this, if_neg hn]
  · rw [if_neg h, if_neg h]

theorem vec_raw (E : Env) (c : Cfg) (rows : List (String → ℚ)) (cols : List String) (h : normCols c cols = []) (r : String → ℚ) :
    vec E c rows cols r = cols.map (fun k => r k) := by
  unfold vec
  apply List.map_congr_left
  intro k hk
  unfold scaled
  rw [if_neg]
  intro hn
  have : k ∈ normCols c cols := by simp [normCols, hk, hn]
  rw [h] at this; cases this

theorem newScaler_some (E : Env) (c : Cfg) (s : State) (x : Frame) (h : normCols c x.cols ≠ []) : newScaler E c s x = some (fitScaler E c x (normCols c x.cols)) := by
  unfold newScaler
  rw [toNorm_eq, if_pos (List.length_pos_iff.2 h)]

theorem newScaler_keep (E : Env) (c : Cfg) (s : State) (x : Frame) (h : normCols c x.cols = []) : newScaler E c s x = s.scaler := by
  unfold newScaler
  rw [toNorm_eq, h]; rfl

theorem fit_norm (E : Env) (c : Cfg) (s : State) (x : Frame) (h : normCols c x.cols ≠ []) :
    fit E c s x = (⟨some (fitScaler E c x (normCols c x.cols)), some (x.cols.length, trained E c x)⟩, none) := by
  unfold fit trainInputs
  rw [newScaler_some E c s x h, normInputs_scaler]
  simp only [splitFrame, if_true]
  rfl

theorem fit_raw (E : Env) (c : Cfg) (s : State) (x : Frame) (h : normCols c x.cols = []) (hs : s.scaler = none) :
    fit E c s x = (⟨none, some (x.cols.length, trained E c x)⟩, none) := by
  unfold fit trainInputs
  rw [newScaler_keep E c s x h, hs]
  simp only [normInputs, splitFrame]
  unfold trained
  have : vec E c x.rows x.cols = fun r => x.cols.map (fun k => r k) := by funext r; exact vec_raw E c _ _ h r
  rw [this]

theorem mapM_applyNet (w : ℕ) (g : List ℚ → List ℚ) (vs : List (List ℚ)) (h : ∀ v ∈ vs, v.length = w) : vs.mapM (applyNet w g) = .ok (vs.map g) :=
  Hybrid.mapM_ok _ _ _ (fun v hv => by simp [applyNet, h v hv])

theorem vec_length (E : Env) (c : Cfg) (rows : List (String → ℚ)) (cols : List String) (r : String → ℚ) : (vec E c rows cols r).length = cols.length := by simp [vec]

theorem predict_vecs (c : Cfg) (s : State) (y : Frame) (w : ℕ) (g : List ℚ → List ℚ) (hnet : s.net = some (w, g)) (f : (String → ℚ) → List ℚ) (hf : ∀ r, (f r).length = y.cols.length)
    (hn : normInputs c s.scaler y = .ok (y.rows.map f)) (hy : y.rows ≠ []) :
    (y.cols.length = w → predict c s y = .ok (y.rows.map (fun r => g (f r)))) ∧ (y.cols.length ≠ w → ∃ e, predict c s y = .error e) := by
  unfold predict
  rw [hnet, hn]
  constructor
  · intro hw
    simp only
    rw [mapM_applyNet _ _ _ (by
      intro v hv
      obtain ⟨r, -, rfl⟩ := List.mem_map.1 hv
      rw [hf, hw])]
    rw [List.map_map]; rfl
  · intro hw
    simp only
    obtain ⟨r, hr⟩ := List.exists_mem_of_ne_nil _ hy
    exact Hybrid.mapM_error _ _ (f r) (List.mem_map.2 ⟨r, hr, rfl⟩) ⟨.valueError, by simp [applyNet, hf, hw]⟩

/-! ### C183: order of the columns -/

/-- C183. A network fitted with at least one normalised column, by a fit that cannot fail, forecasts exactly the frames with the same number of columns whose normalised columns have
the names and order of the fit; the columns that are not normalised may have any name and place. -/
theorem C183_accepts (E : Env) (c : Cfg) (s : State) (x y : Frame) (h : normCols c x.cols ≠ []) (hy : y.rows ≠ []) :
    (fit E c s x).2 = none ∧
    ((∃ r, predict c (fit E c s x).1 y = .ok r) ↔ normCols c y.cols = normCols c x.cols ∧ y.cols.length = x.cols.length) ∧
    (normCols c y.cols = normCols c x.cols ∧ y.cols.length = x.cols.length →
      predict c (fit E c s x).1 y = .ok (y.rows.map (fun r => trained E c x (vec E c x.rows y.cols r)))) := by
  rw [fit_norm E c s x h]
  have key := normInputs_scaler E c x y (normCols c x.cols)
  refine ⟨rfl, ⟨?_, ?_⟩, ?_⟩
  · rintro ⟨r, hr⟩
    by_cases h1 : normCols c y.cols = normCols c x.cols
    · rw [if_pos h1] at key
      have := predict_vecs c ⟨some (fitScaler E c x (normCols c x.cols)), some (x.cols.length, trained E c x)⟩ y _ _ rfl _ (vec_length E c x.rows y.cols) key hy
      refine ⟨h1, ?_⟩
      by_contra h2
      obtain ⟨e, he⟩ := this.2 h2
      rw [he] at hr; cases hr
    · rw [if_neg h1] at key
      unfold predict at hr
      simp only [key] at hr
      cases hr
  · rintro ⟨h1, h2⟩
    rw [if_pos h1] at key
    exact ⟨_, (predict_vecs c ⟨some (fitScaler E c x (normCols c x.cols)), some (x.cols.length, trained E c x)⟩ y _ _ rfl _ (vec_length E c x.rows y.cols) key hy).1 h2⟩
  · rintro ⟨h1, h2⟩
    rw [if_pos h1] at key
    exact (predict_vecs c ⟨some (fitScaler E c x (normCols c x.cols)), some (x.cols.length, trained E c x)⟩ y _ _ rfl _ (vec_length E c x.rows y.cols) key hy).1 h2

/-- C183. With all columns normalised only the column list of the fit is accepted. -/
theorem C183_all_normalised (E : Env) (c : Cfg) (s : State) (x y : Frame) (hc : c.unnorm = none) (hx : x.cols ≠ []) (hy : y.rows ≠ []) :
    (∃ r, predict c (fit E c s x).1 y = .ok r) ↔ y.cols = x.cols := by
  have hall : ∀ l, normCols c l = l := fun l => by simp [normCols, IsNorm, hc]
  rw [(C183_accepts E c s x y (by rw [hall]; exact hx) hy).2.1, hall, hall]
  exact ⟨fun h => h.1, fun h => ⟨h, by rw [h]⟩⟩

/-- C183. With no column normalised a new object accepts every frame with as many columns, whatever their names, and takes the values in the order of that frame. -/
theorem C183_none_normalised (E : Env) (c : Cfg) (x y : Frame) (h : normCols c x.cols = []) (hy : y.rows ≠ []) :
    (fit E c fresh x).2 = none ∧
    ((∃ r, predict c (fit E c fresh x).1 y = .ok r) ↔ y.cols.length = x.cols.length) ∧
    (y.cols.length = x.cols.length → predict c (fit E c fresh x).1 y = .ok (y.rows.map (fun r => trained E c x (y.cols.map (fun k => r k))))) := by
  rw [fit_raw E c fresh x h rfl]
  have := predict_vecs c ⟨none, some (x.cols.length, trained E c x)⟩ y _ _ rfl (fun r => y.cols.map (fun k => r k)) (fun r => by simp) rfl hy
  refine ⟨rfl, ⟨?_, fun h2 => ⟨_, this.1 h2⟩⟩, this.1⟩
  rintro ⟨r, hr⟩
  by_contra h2
  obtain ⟨e, he⟩ := this.2 h2
  rw [he] at hr; cases hr

/-- C183 (defect). A rearranged frame that is accepted is read wrongly: for some row the network gets another vector than for the same row in the order of the fit. -/
theorem C183_misread (E : Env) (c : Cfg) (x : Frame) (cols : List String) (hd : ∀ l, E.dev l ≠ 0) (hlen : cols.length = x.cols.length) (hne : cols ≠ x.cols) :
    ∃ r, vec E c x.rows cols r ≠ vec E c x.rows x.cols r := by
  -- a place with different names
  obtain ⟨i, hi, hi', hab⟩ : ∃ i, ∃ (h1 : i < cols.length) (h2 : i < x.cols.length), cols[i] ≠ x.cols[i] := by
    by_contra hno
    apply hne
    apply List.ext_getElem hlen
    intro i h1 h2
    by_contra h
    exact hno ⟨i, h1, h2, h⟩
  -- the value of the first can be moved without moving that of the second
  have hmove : ∃ z, scaled E c x.rows cols[i] z ≠ scaled E c x.rows x.cols[i] 0 := by
    by_contra hno
    have hall : ∀ z, scaled E c x.rows cols[i] z = scaled E c x.rows x.cols[i] 0 := fun z => by
      by_contra h; exact hno ⟨z, h⟩
    have h1 := (hall 1).trans (hall 0).symm
    unfold scaled at h1
    split_ifs at h1
    · have := hd (x.rows.map (fun r => r cols[i]))
      rw [div_left_inj' this] at h1
      linarith
    · have := hd (x.rows.map (fun r => r cols[i]))
      rw [div_left_inj' this] at h1
      linarith
    · norm_num at h1
  obtain ⟨z, hz⟩ := hmove
  refine ⟨fun k => if k = cols[i] then z else 0, fun he => hz ?_⟩
  have := congrArg (fun l : List ℚ => l[i]?) he
  simp only [vec, List.getElem?_map, List.getElem?_eq_getElem hi, List.getElem?_eq_getElem hi', Option.map_some, Option.some.injEq, if_true] at this
  rw [if_neg (Ne.symm hab)] at this
  exact this

/-! ### C184: refitting without normalised columns -/

/-- Some call had a column to normalise. -/
def Normalised (l : List (Cfg × Frame)) : Prop := ∃ p ∈ l, normCols p.1 p.2.cols ≠ []

theorem history_scaler (E : Env) (l : List (Cfg × Frame)) (s : State) : (history E s l).scaler = none ↔ s.scaler = none ∧ ¬ Normalised l := by
  induction l generalizing s with
  | nil => simp [history, Normalised]
  | cons p l ih =>
    obtain ⟨c, x⟩ := p
    simp only [history]
    rw [ih]
    have hsc : (fit E c s x).1.scaler = newScaler E c s x := by
      unfold fit
      cases trainInputs E c s x <;> rfl
    rw [hsc]
    by_cases h : normCols c x.cols = []
    · rw [newScaler_keep E c s x h]
      simp [Normalised, h]
    · rw [newScaler_some E c s x h]
      simp [Normalised, h]

theorem history_names (E : Env) (l : List (Cfg × Frame)) (s : State) (hs : ∀ sc, s.scaler = some sc → sc.names ≠ []) (sc : Scaler) (h : (history E s l).scaler = some sc) : sc.names ≠ [] := by
  induction l generalizing s with
  | nil => exact hs sc h
  | cons p l ih =>
    obtain ⟨c, x⟩ := p
    simp only [history] at h
    refine ih _ ?_ h
    intro sc' hsc'
    have hsc : (fit E c s x).1.scaler = newScaler E c s x := by
      unfold fit
      cases trainInputs E c s x <;> rfl
    rw [hsc] at hsc'
    by_cases h0 : normCols c x.cols = []
    · rw [newScaler_keep E c s x h0] at hsc'
      exact hs sc' hsc'
    · rw [newScaler_some E c s x h0] at hsc'
      cases hsc'
      exact h0

/-- C184 (defect). After any history of calls of `fit`, a fit without a column to normalise succeeds iff no earlier call had one; otherwise it raises ValueError. A fit with such a column
always succeeds, and gives the same network as on a new object. -/
theorem C184_refit (E : Env) (l : List (Cfg × Frame)) (c : Cfg) (x : Frame) :
    (normCols c x.cols = [] → ¬ Normalised l → (fit E c (history E fresh l) x).2 = none ∧ (fit E c (history E fresh l) x).1 = (fit E c fresh x).1) ∧
    (normCols c x.cols = [] → Normalised l → (fit E c (history E fresh l) x).2 = some .valueError) ∧
    (normCols c x.cols ≠ [] → (fit E c (history E fresh l) x).2 = none ∧ (fit E c (history E fresh l) x).1 = (fit E c fresh x).1) := by
  refine ⟨?_, ?_, ?_⟩
  · intro h hl
    have hs : (history E fresh l).scaler = none := (history_scaler E l fresh).2 ⟨rfl, hl⟩
    rw [fit_raw E c _ x h hs, fit_raw E c fresh x h rfl]
    exact ⟨rfl, rfl⟩
  · intro h hl
    cases hs : (history E fresh l).scaler with
    | none => exact absurd hl ((history_scaler E l fresh).1 hs).2
    | some sc =>
      have hnames := history_names E l fresh (fun sc h => by cases h) sc hs
      unfold fit trainInputs
      rw [newScaler_keep E c _ x h, hs]
      simp only [normInputs, splitFrame, toNorm_eq, h]
      rw [if_neg (Ne.symm hnames)]
  · intro h
    rw [fit_norm E c _ x h, fit_norm E c fresh x h]
    exact ⟨rfl, rfl⟩

/-! ### C185: the scaler sees the validation rows -/

/-- C185 (defect). Two data sets with the same training rows and other validation rows train the network on the same vectors iff every normalised column has the same spread in both, or only zeros in
the training rows (default scaling, without subtraction of the mean). -/
theorem C185_leak (E : Env) (c : Cfg) (s s' : State) (x x' : Frame) (hc : c.subtractMean = false) (hcols : x'.cols = x.cols) (hn : normCols c x.cols ≠ []) (hd : ∀ l, E.dev l ≠ 0)
    (htr : (splitFrame c x').1.rows = (splitFrame c x).1.rows) :
    trainInputs E c s x = trainInputs E c s' x' ↔
      ∀ k ∈ normCols c x.cols, E.dev (x.rows.map (fun r => r k)) = E.dev (x'.rows.map (fun r => r k)) ∨ ∀ r ∈ (splitFrame c x).1.rows, r k = 0 := by
  have e1 : trainInputs E c s x = .ok ((splitFrame c x).1.rows.map (vec E c x.rows x.cols)) := by
    unfold trainInputs
    rw [newScaler_some E c s x hn, normInputs_scaler]
    simp [splitFrame]
  have e2 : trainInputs E c s' x' = .ok ((splitFrame c x).1.rows.map (vec E c x'.rows x.cols)) := by
    unfold trainInputs
    rw [newScaler_some E c s' x' (by rw [hcols]; exact hn), normInputs_scaler, htr]
    simp [splitFrame, hcols]
  rw [e1, e2]
  have e3 : ∀ rows k z, IsNorm c k → scaled E c rows k z = z / E.dev (rows.map (fun r => r k)) := by
    intro rows k z hk
    simp [scaled, hk, hc]
  constructor
  · intro h k hk
    have hk' : k ∈ x.cols ∧ IsNorm c k := by simpa [normCols] using hk
    by_contra hno
    push Not at hno
    obtain ⟨hne, r, hr, hz⟩ := hno
    have h1 := List.map_inj_left.1 (Except.ok.inj h) r hr
    have h2 := List.map_inj_left.1 h1 k hk'.1
    rw [e3 _ _ _ hk'.2, e3 _ _ _ hk'.2] at h2
    have d1 := hd (x.rows.map (fun r => r k))
    have d2 := hd (x'.rows.map (fun r => r k))
    rw [div_eq_div_iff d1 d2] at h2
    exact hne (mul_left_cancel₀ hz h2).symm
  · intro h
    congr 1
    apply List.map_congr_left
    intro r hr
    apply List.map_congr_left
    intro k hk
    by_cases hkn : IsNorm c k
    · rw [e3 _ _ _ hkn, e3 _ _ _ hkn]
      rcases h k (by simp [normCols, hk, hkn]) with h1 | h1
      · rw [h1]
      · rw [h1 r hr]; simp
    · simp [scaled, hkn]

/-! ### C186: quantiles of an LSTM -/

/-- C186 (defect). Every quantile forecast of a frame by an LSTM network raises AttributeError, whatever its state; only the call made for plots during the training avoids it. -/
theorem C186_lstm (c : Cfg) (s : State) (x : Frame) (prob direct : Bool) (h : ¬ (prob = true ∧ direct = true)) :
    quantileBase true prob direct c s (.frame x) = .error .attributeError := by
  unfold quantileBase
  have : (prob && direct) = false := by simpa using h
  rw [this]
  rfl

/-- C186. A feed-forward network starts from its forecasts. -/
theorem C186_feed_forward (c : Cfg) (s : State) (x : Frame) (prob : Bool) : quantileBase false prob false c s (.frame x) = predict c s x := by
  simp [quantileBase, checkInputs, predictInp]

end PyF.NnIo
