import Verif.Transform.Lemmas
import Mathlib.Data.List.Forall2

namespace PyF.Transform
open PyF.Names

/-! ### C17: lagged features -/

/-- Specification of lagging: the value at row `t` is the source value at the row `k` with `t = k + L`, NaN when
there is no such row. -/
def IsLag (L : Int) (src col : Col) : Prop :=
  col.length = src.length ∧
  (∀ t k : Nat, t < src.length → k < src.length → (t : Int) = k + L → col[t]? = src[k]?) ∧
  (∀ t : Nat, t < src.length → (∀ k : Nat, k < src.length → (t : Int) ≠ k + L) → col[t]? = some none)

theorem shift_isLag (L : Int) (c : Col) : IsLag L c (shift L c) := by
  refine ⟨shift_length L c, ?_, ?_⟩
  · intro t k ht hk e
    rw [shift_get L c t ht]
    have : (t : Int) - L = (k : Int) := by omega
    rw [this, sample_nat, List.getElem?_eq_getElem hk]
    rfl
  · intro t ht h
    rw [shift_get L c t ht]
    congr 1
    rcases lt_or_ge ((t : Int) - L) 0 with h1 | h1
    · exact sample_neg _ _ h1
    · apply sample_out
      by_contra h2
      exact h ((t : Int) - L).toNat (by omega) (by omega)

/-- C17: without aggregation functions and with absolute lags, the generated frame has exactly one column per
(variable, lag), variable-major and lag-minor in the given order, named after both, each being the variable lagged by
exactly the stated number of rows. -/
theorem C17_lagged_features (tr : Transformer) (F : Frame) (ls : List Int) (hf : tr.functions = [])
    (hl : tr.lags = some ls) (hne : ls ≠ []) (hrel : tr.relative = false)
    (hnames : ∀ nm ∈ tr.names, ∃ c, (nm, c) ∈ F.cols) :
    ∃ tr' out ms, transform tr false F = .ok (tr', out, ms) ∧
      List.Forall₂ (fun (p : Str × Col) (q : Str × Int) =>
        p.1 = lagName q.1 q.2 ∧ IsLag q.2 (F.get q.1) p.2)
        out.cols (tr.names.flatMap (fun nm => ls.map (fun l => (nm, l)))) := by
  have h1 : tr.names.all (fun nm => F.cols.any (fun p => p.1 = nm)) = true := by
    rw [List.all_eq_true]
    intro nm hnm
    obtain ⟨c, hc⟩ := hnames nm hnm
    rw [List.any_eq_true]
    exact ⟨_, hc, by simp⟩
  have h2 : ¬ (tr.names ≠ [] ∧ tr.lags = some []) := by
    rintro ⟨_, h⟩
    rw [hl] at h
    exact hne (Option.some.inj h)
  refine ⟨_, _, _, by rw [transform, if_pos h1, if_neg h2], ?_⟩
  simp only [Bool.false_eq_true, if_false, List.nil_append]
  generalize (if tr.names = [] then tr.agg else tr.agg.resolve (samplingTime tr F)) = a
  induction tr.names with
  | nil => exact List.Forall₂.nil
  | cons nm nms ih =>
    simp only [List.flatMap_cons]
    refine List.rel_append ?_ ih
    simp only [genCols, hl, baseCols, hf, lagMult, hrel, List.map_cons, List.map_nil, Bool.false_eq_true, if_false, mul_one]
    clear ih hl hne hnames h1 h2
    induction ls with
    | nil => exact List.Forall₂.nil
    | cons l ls ih =>
      exact List.Forall₂.cons ⟨rfl, shift_isLag l _⟩ ih

/-! ### C18: aggregated features -/

/-- Specification of an aggregated feature: rows `t-L-w+1 .. t-L`, aggregated in chronological order, NaN as soon as
one of them lies outside the frame or is missing. -/
def IsAgg (w : Nat) (L : Int) (f : List ℚ → Option ℚ) (src col : Col) : Prop :=
  col.length = src.length ∧
  ∀ t : Nat, t < src.length →
    col[t]? = some ((((List.range w).map (fun (j : Nat) => (t : Int) - L - w + 1 + j)).mapM (sample src)).bind f)

theorem shift_rolling_isAgg (dt w : Nat) (hdt : 0 < dt) (hw : 0 < w) (f : List ℚ → Option ℚ) (c : Col) (L : Int) :
    IsAgg w L f c (shift L (rolling dt (w * dt) w f c)) := by
  refine ⟨by rw [shift_length, rolling_length], ?_⟩
  intro t ht
  rw [shift_get L _ t (by rw [rolling_length]; exact ht), shift_rolling_whole dt w hdt hw f c L t ht]

theorem rolling_isAgg (dt w : Nat) (hdt : 0 < dt) (hw : 0 < w) (f : List ℚ → Option ℚ) (c : Col) :
    IsAgg w 0 f c (rolling dt (w * dt) w f c) := by
  refine ⟨rolling_length _ _ _ _ _, ?_⟩
  intro t ht
  rw [rolling_get _ _ _ _ _ _ ht, rollAt_whole dt w hdt hw]
  simp

theorem shift_isAgg (c : Col) (L : Int) : IsAgg 1 L (fun l => l.head?) c (shift L c) := by
  refine ⟨shift_length _ _, ?_⟩
  intro t ht
  rw [shift_get L _ t ht]
  have : (List.range 1).map (fun (j : Nat) => (t : Int) - L - (1 : Nat) + 1 + j) = [(t : Int) - L] := by
    simp [List.range_succ]
  rw [this]
  cases h : sample c ((t : Int) - L) <;> simp [h]

theorem self_isAgg (c : Col) : IsAgg 1 0 (fun l => l.head?) c c := by
  refine ⟨rfl, ?_⟩
  intro t ht
  have : (List.range 1).map (fun (j : Nat) => (t : Int) - 0 - (1 : Nat) + 1 + j) = [(t : Int)] := by
    simp [List.range_succ]
  rw [this, List.getElem?_eq_getElem ht]
  have h2 : sample c (t : Int) = c[t] := by rw [sample_nat, List.getElem?_eq_getElem ht]; rfl
  cases h : c[t] <;> simp [h2, h]

/-- What the user asked for: no `agg_freq` means one sample, an integer means that many samples, a duration means
`w` sampling times. -/
def Stated (dt w : Nat) : Agg → Prop
  | .unset => w = 1
  | .steps k => k = w
  | .text _ v => v = w * dt
  | .td v => v = w * dt

/-- The stated aggregation is `w ≥ 1` whole sampling steps; without functions `w = 1`. -/
structure Regular (tr : Transformer) (F : Frame) (w : Nat) : Prop where
  dt_pos : 0 < tr.dtArg.getD F.dt
  w_pos : 0 < w
  stated : Stated (tr.dtArg.getD F.dt) w tr.agg
  single : tr.functions = [] → w = 1

theorem Regular.whole {tr : Transformer} {F : Frame} {w : Nat} (h : Regular tr F w) :
    (tr.agg.resolve (samplingTime tr F)).ns = w * samplingTime tr F := by
  have hs := h.stated
  cases ha : tr.agg with
  | unset => rw [ha] at hs; simp only [Stated] at hs; subst hs; simp [Agg.resolve, Agg.ns]
  | steps k => rw [ha] at hs; simp only [Stated] at hs; subst hs; rfl
  | text x v => rw [ha] at hs; exact hs
  | td v => rw [ha] at hs; exact hs

theorem Regular.steps {tr : Transformer} {F : Frame} {w : Nat} (h : Regular tr F w) :
    aggSteps (samplingTime tr F) (tr.agg.resolve (samplingTime tr F)) = w := by
  rw [aggSteps, h.whole]
  exact Nat.mul_div_cancel _ h.dt_pos

/-- The aggregators of a transformer: its functions, or the plain sample. -/
def aggregators (tr : Transformer) : List (Str × (List ℚ → Option ℚ)) :=
  match tr.functions with
  | [] => [("none".toList, fun l => l.head?)]
  | fs => fs.map (fun f => (f.name, f.ev))

/-- The (lag, aggregator) pairs of one variable, in column order: lag-major. `none` = no lags. -/
def features (tr : Transformer) : List (Option Int × Str × (List ℚ → Option ℚ)) :=
  match tr.lags with
  | none => (aggregators tr).map (fun g => (none, g))
  | some ls => ls.flatMap (fun l => (aggregators tr).map (fun g => (some l, g)))

/-- Lag in rows: relative lags count aggregation windows. -/
def rowLag (tr : Transformer) (w : Nat) (l : Option Int) : Int := l.getD 0 * (if tr.relative then (w : Int) else 1)

theorem forall₂_flatMap {α β γ : Type} (R : α → β → Prop) (l : List γ) (f : γ → List α) (g : γ → List β)
    (h : ∀ c ∈ l, List.Forall₂ R (f c) (g c)) : List.Forall₂ R (l.flatMap f) (l.flatMap g) := by
  induction l with
  | nil => exact List.Forall₂.nil
  | cons a l ih =>
    simp only [List.flatMap_cons]
    exact List.rel_append (h a List.mem_cons_self) (ih (fun c hc => h c (List.mem_cons_of_mem _ hc)))

theorem forall₂_map {α β γ : Type} (R : α → β → Prop) (l : List γ) (f : γ → α) (g : γ → β)
    (h : ∀ c ∈ l, R (f c) (g c)) : List.Forall₂ R (l.map f) (l.map g) := by
  induction l with
  | nil => exact List.Forall₂.nil
  | cons a l ih =>
    exact List.Forall₂.cons (h a List.mem_cons_self) (ih (fun c hc => h c (List.mem_cons_of_mem _ hc)))

theorem genCols_spec (tr : Transformer) (F : Frame) (w : Nat) (h : Regular tr F w) (nm : Str) (c : Col) :
    List.Forall₂ (fun (p : Str × Col) (q : Option Int × Str × (List ℚ → Option ℚ)) =>
      IsAgg w (rowLag tr w q.1) q.2.2 c p.2)
      (genCols tr (tr.agg.resolve (samplingTime tr F)) (samplingTime tr F) nm c) (features tr) := by
  have hs := h.steps
  unfold genCols features
  rw [hs]
  cases hl : tr.lags with
  | none =>
    simp only [baseCols, aggregators]
    cases hf : tr.functions with
    | nil =>
      have hw := h.single hf
      subst hw
      exact List.Forall₂.cons (by simpa [rowLag] using self_isAgg c) List.Forall₂.nil
    | cons f fs =>
      simp only [List.map_map]
      apply forall₂_map
      intro g _
      have := rolling_isAgg (samplingTime tr F) w h.dt_pos h.w_pos g.ev c
      simp only [Function.comp, rowLag, Option.getD_none, zero_mul]
      rw [hs, h.whole]
      exact this
  | some ls =>
    apply forall₂_flatMap
    intro l _
    simp only [baseCols, aggregators]
    cases hf : tr.functions with
    | nil =>
      have hw := h.single hf
      subst hw
      refine List.Forall₂.cons ?_ List.Forall₂.nil
      simp only [rowLag, Option.getD_some, lagMult]
      exact shift_isAgg c _
    | cons f fs =>
      simp only [List.map_map]
      apply forall₂_map
      intro g _
      have := shift_rolling_isAgg (samplingTime tr F) w h.dt_pos h.w_pos g.ev c (l * lagMult tr w)
      simp only [Function.comp, rowLag, Option.getD_some, lagMult] at this ⊢
      rw [hs, h.whole]
      exact this

/-- A call that raises nothing. -/
def Accepts (tr : Transformer) (F : Frame) : Prop :=
  (∀ nm ∈ tr.names, ∃ c, (nm, c) ∈ F.cols) ∧ tr.lags ≠ some []

theorem transform_ok (tr : Transformer) (F : Frame) (augment : Bool) (h : Accepts tr F) :
    transform tr augment F = .ok
      ({ tr with agg := if tr.names = [] then tr.agg else tr.agg.resolve (samplingTime tr F) },
       { dt := F.dt, cols := (if augment then F.cols else []) ++ tr.names.flatMap
          (fun nm => genCols tr (tr.agg.resolve (samplingTime tr F)) (samplingTime tr F) nm (F.get nm)) },
       tr.names.flatMap (fun nm => genMeta tr (tr.agg.resolve (samplingTime tr F)) (samplingTime tr F) nm)) := by
  have h1 : tr.names.all (fun nm => F.cols.any (fun p => p.1 = nm)) = true := by
    rw [List.all_eq_true]
    intro nm hnm
    obtain ⟨c, hc⟩ := h.1 nm hnm
    rw [List.any_eq_true]
    exact ⟨_, hc, by simp⟩
  have h2 : ¬ (tr.names ≠ [] ∧ tr.lags = some []) := fun h' => h.2 h'.2
  rw [transform, if_pos h1, if_neg h2]
  by_cases hn : tr.names = []
  · simp [hn]
  · simp [hn]

/-- C18: the augmented frame is the input frame followed by one column per (variable, lag, function) in that
nesting order; each holds at row `t` the function of exactly the rows `t-L-w+1 .. t-L` of its variable, NaN when one
of them is missing or outside the frame. -/
theorem C18_aggregated_features (tr : Transformer) (F : Frame) (w : Nat) (hreg : Regular tr F w) (hacc : Accepts tr F) :
    ∃ tr' out ms gen, transform tr true F = .ok (tr', out, ms) ∧ out.cols = F.cols ++ gen ∧
      List.Forall₂ (fun (p : Str × Col) (q : Str × Option Int × Str × (List ℚ → Option ℚ)) =>
        IsAgg w (rowLag tr w q.2.1) q.2.2.2 (F.get q.1) p.2)
        gen (tr.names.flatMap (fun nm => (features tr).map (fun q => (nm, q)))) := by
  refine ⟨_, _, _, _, transform_ok tr F true hacc, rfl, ?_⟩
  apply forall₂_flatMap
  intro nm _
  rw [List.forall₂_map_right_iff]
  exact genCols_spec tr F w hreg nm (F.get nm)

/-- C18 (non-interference): samples outside the window `t-L-w+1 .. t-L` do not influence the value. -/
theorem C18_outside_window_irrelevant (w : Nat) (L : Int) (f : List ℚ → Option ℚ) (src src' col col' : Col)
    (h : IsAgg w L f src col) (h' : IsAgg w L f src' col') (t : Nat) (ht : t < src.length) (ht' : t < src'.length)
    (hagree : ∀ s : Int, (t : Int) - L - w < s → s ≤ (t : Int) - L → sample src s = sample src' s) :
    col[t]? = col'[t]? := by
  rw [h.2 t ht, h'.2 t ht']
  congr 2
  apply mapM_congr'
  intro s hs
  simp only [List.mem_map, List.mem_range] at hs
  obtain ⟨j, hj, rfl⟩ := hs
  exact hagree _ (by omega) (by omega)

/-! ### C20: metadata -/

/-- How the window is written in the names of the columns: the text the user gave, otherwise the duration in whole seconds, written out. -/
def spelled (dt : Nat) : Agg → Str
  | .unset => hrTimedelta false ((dt / 1000000000 : Nat) : Int)
  | .steps k => hrTimedelta false ((k * dt / 1000000000 : Nat) : Int)
  | .text txt _ => txt
  | .td v => hrTimedelta false ((v / 1000000000 : Nat) : Int)

theorem label_resolve (dt : Nat) (a : Agg) : (a.resolve dt).label = spelled dt a := by cases a <;> rfl

/-- The column name of a feature: variable, aggregation label and function when there are functions, then the lag. -/
def featureName (tr : Transformer) (lab : Str) (var : Str) (lag : Option Int) (fn : Str) : Str :=
  let base := if tr.functions.isEmpty then var else aggName var lab fn
  match lag with
  | none => base
  | some l => lagName base l

/-- A metadata row describes a column: the named variable's samples `s` with `start ≤ (s - t)·dt < stop`, in
chronological order, are exactly what the column aggregates at row `t`. -/
def Describes (F : Frame) (dt : Nat) (tr : Transformer) (p : Str × Col) (m : Meta) : Prop :=
  p.1 = m.col ∧ m.col = featureName tr (spelled dt tr.agg) m.var m.lag m.fn ∧ m.var ∈ tr.names ∧
  ∃ f, (m.lag, m.fn, f) ∈ features tr ∧ p.2.length = (F.get m.var).length ∧
    ∀ t : Nat, t < (F.get m.var).length → ∃ idx : List Int, idx.Pairwise (· < ·) ∧
      (∀ s : Int, s ∈ idx ↔ m.start ≤ (s - t) * dt ∧ (s - t) * dt < m.stop) ∧
      p.2[t]? = some ((idx.mapM (sample (F.get m.var))).bind f)

theorem idx_pairwise (a : Int) (w : Nat) : ((List.range w).map (fun (j : Nat) => a + j)).Pairwise (· < ·) := by
  rw [List.pairwise_map]
  refine List.pairwise_lt_range.imp ?_
  intro a b h
  omega

theorem idx_mem (dt w : Nat) (hdt : 0 < dt) (L t s : Int) :
    s ∈ (List.range w).map (fun (j : Nat) => t - L - w + 1 + j)
      ↔ - (L * dt) - w * dt + dt ≤ (s - t) * dt ∧ (s - t) * dt < - (L * dt) + dt := by
  have hd : (0 : Int) < dt := by exact_mod_cast hdt
  have e1 : - (L * dt) - w * dt + dt = (-L - w + 1) * (dt : Int) := by ring
  have e2 : - (L * dt) + dt = (-L + 1) * (dt : Int) := by ring
  rw [e1, e2, mul_le_mul_iff_left₀ hd, mul_lt_mul_iff_left₀ hd]
  simp only [List.mem_map, List.mem_range]
  constructor
  · rintro ⟨j, hj, rfl⟩
    constructor <;> omega
  · rintro ⟨h1, h2⟩
    exact ⟨(s - (t - L - w + 1)).toNat, by omega, by omega⟩

theorem baseCols_names (tr : Transformer) (a : Agg) (dt : Nat) (nm : Str) (c : Col) :
    (baseCols tr a dt nm c).map Prod.fst = baseNames tr a nm := by
  unfold baseCols baseNames
  cases tr.functions with
  | nil => rfl
  | cons f fs => simp

theorem genCols_names (tr : Transformer) (a : Agg) (dt : Nat) (nm : Str) (c : Col) :
    (genCols tr a dt nm c).map Prod.fst = transNames tr a nm := by
  unfold genCols transNames
  rw [← baseCols_names tr a dt nm c]
  cases tr.lags with
  | none => rfl
  | some ls =>
    simp only [List.map_flatMap, List.map_map]
    rfl

theorem fnNames_aggregators (tr : Transformer) : fnNames tr = (aggregators tr).map Prod.fst := by
  unfold fnNames aggregators
  cases tr.functions with
  | nil => rfl
  | cons f fs => simp

theorem features_rows (tr : Transformer) :
    (features tr).map (fun q => ((q.1, q.1.getD 0, q.2.1) : Option Int × Int × Str)) = metaRows tr := by
  unfold features metaRows
  rw [fnNames_aggregators]
  cases tr.lags with
  | none => simp only [List.map_map]; rfl
  | some ls => simp only [List.map_flatMap, List.map_map]; rfl

theorem features_names (tr : Transformer) (a : Agg) (nm : Str) :
    (features tr).map (fun q => featureName tr a.label nm q.1 q.2.1) = transNames tr a nm := by
  unfold features transNames
  have hb : ∀ l : Option Int, (aggregators tr).map (fun g => featureName tr a.label nm l g.1)
      = (baseNames tr a nm).map (fun b => match l with | none => b | some l => lagName b l) := by
    intro l
    unfold aggregators baseNames featureName
    cases tr.functions with
    | nil => cases l <;> simp
    | cons f fs => cases l <;> simp [Function.comp_def]
  cases tr.lags with
  | none =>
    simp only [List.map_map]
    have := hb none
    simp only [List.map_id'] at this
    exact this
  | some ls =>
    simp only [List.map_flatMap, List.map_map]
    congr 1
    funext l
    exact hb (some l)

/-- C20: on a regular grid with whole aggregation steps, the generated columns and the metadata rows correspond one
to one in order, and each metadata row gives exactly the time window its column reads. -/
theorem C20_metadata_describes_columns (tr : Transformer) (F : Frame) (w : Nat) (hreg : Regular tr F w)
    (hacc : Accepts tr F) :
    ∃ tr' out ms, transform tr false F = .ok (tr', out, ms) ∧
      List.Forall₂ (Describes F (tr.dtArg.getD F.dt) tr) out.cols ms := by
  refine ⟨_, _, _, transform_ok tr F false hacc, ?_⟩
  simp only [Bool.false_eq_true, if_false, List.nil_append]
  apply forall₂_flatMap
  intro nm hnm
  set a := tr.agg.resolve (samplingTime tr F) with ha
  set dt := samplingTime tr F with hdt
  have hspec := genCols_spec tr F w hreg nm (F.get nm)
  rw [← ha, ← hdt] at hspec
  have hsteps : aggSteps dt a = w := hreg.steps
  have hlen : (genCols tr a dt nm (F.get nm)).length = (features tr).length := hspec.length_eq
  have hnames := genCols_names tr a dt nm (F.get nm)
  rw [← features_names tr a nm] at hnames
  unfold genMeta
  simp only
  rw [← features_rows, hsteps, ← features_names tr a nm, List.zipWith_map, List.zipWith_self]
  generalize genCols tr a dt nm (F.get nm) = gc at *
  generalize hfe : features tr = fe at hspec hnames hlen ⊢
  clear hlen
  have hsub : ∀ q ∈ fe, q ∈ features tr := by rw [hfe]; exact fun q hq => hq
  clear hfe
  induction hspec with
  | nil => exact List.Forall₂.nil
  | @cons p q ps qs hr _ ih =>
    simp only [List.map_cons, List.cons.injEq] at hnames
    refine List.Forall₂.cons ?_ (ih hnames.2 (fun q hq => hsub q (List.mem_cons_of_mem _ hq)))
    refine ⟨hnames.1, congrArg (fun b => featureName tr b nm q.1 q.2.1) (label_resolve dt tr.agg), hnm, q.2.2, hsub q List.mem_cons_self, hr.1, ?_⟩
    intro t ht
    refine ⟨(List.range w).map (fun (j : Nat) => (t : Int) - rowLag tr w q.1 - w + 1 + j), idx_pairwise _ _, ?_, hr.2 t ht⟩
    intro s
    rw [idx_mem dt w hreg.dt_pos]
    have e : (if tr.relative = true then (dt : Int) * w else dt) * q.1.getD 0 = rowLag tr w q.1 * dt := by
      unfold rowLag
      split <;> ring
    simp only [e]
    exact Iff.rfl

/-- C20 (defect): when `agg_freq` is not a whole number of sampling steps, pandas' time window has one more sample
than the metadata says. -/
theorem C20_fractional_window (dt w r : Nat) (hr : 0 < r) (hrd : r < dt) (f : List ℚ → Option ℚ) (c : Col)
    (t : Nat) (hw : w ≤ t) (hfull : ∀ s : Nat, s ≤ t → ∃ v, c[s]? = some (some v)) :
    rollAt dt (w * dt + r) ((w * dt + r) / dt) f c t
      = (((List.range (w + 1)).map (fun (j : Nat) => (t : Int) - w + j)).mapM (sample c)).bind f := by
  have hdt : 0 < dt := by omega
  have hsteps : (w * dt + r) / dt = w := by
    rw [Nat.div_eq_of_lt_le] <;> nlinarith
  have hwin : window dt (w * dt + r) c t = window dt ((w + 1) * dt) c t := by
    unfold window
    congr 1
    apply List.filter_congr
    intro s _
    rw [decide_eq_decide]
    constructor
    · intro h; nlinarith
    · intro h
      have h1 : t - s < w + 1 := Nat.lt_of_mul_lt_mul_right h
      have h2 : (t - s) * dt ≤ w * dt := Nat.mul_le_mul_right dt (by omega)
      omega
  have key := rollAt_whole dt (w + 1) hdt (by omega) f c t
  have hobs : ((window dt ((w + 1) * dt) c t).filterMap id).length = w + 1 := by
    unfold window
    rw [filter_window dt (w + 1) t hdt (by omega)]
    rcases obs_all ((((List.range (w + 1)).map (fun j => t + 1 - (w + 1) + j))).map (fun (s : Nat) => sample c (s : Int))) with ⟨h1, h2⟩ | ⟨h1, _⟩
    · exfalso
      have : ∀ l : List Nat, (∀ s ∈ l, s ≤ t) → ((l.map (fun (s : Nat) => sample c (s : Int))).filterMap id).length = l.length := by
        intro l hl
        induction l with
        | nil => rfl
        | cons s l ih =>
          obtain ⟨v, hv⟩ := hfull s (hl s List.mem_cons_self)
          have := sample_of_get c s _ hv
          simp only [List.map_cons, this, List.filterMap_cons, id, List.length_cons]
          exact congrArg (· + 1) (ih (fun s hs => hl s (List.mem_cons_of_mem _ hs)))
      have h3 := this ((List.range (w + 1)).map (fun j => t + 1 - (w + 1) + j)) (by
        intro s hs
        simp only [List.mem_map, List.mem_range] at hs
        obtain ⟨j, hj, rfl⟩ := hs
        omega)
      rw [h3] at h1
      simp at h1
    · rw [h1]; simp
  have e : ∀ m, m ≤ w + 1 → rollAt dt ((w + 1) * dt) m f c t = f ((window dt ((w + 1) * dt) c t).filterMap id) := by
    intro m hm
    unfold rollAt
    simp only
    rw [if_neg (by omega)]
  have e1 : rollAt dt (w * dt + r) ((w * dt + r) / dt) f c t = rollAt dt ((w + 1) * dt) w f c t := by
    rw [hsteps]
    unfold rollAt
    rw [hwin]
  rw [e1, e w (by omega), ← e (w + 1) le_rfl, key]
  congr 2
  apply List.map_congr_left
  intro j _
  push_cast
  ring

/-! ### Concrete instances -/

/-- A frame with two variables on a 15 minute grid. -/
def exFrame : Frame :=
  { dt := 900000000000,
    cols := [("p".toList, [some 1, some 2, none, some 4, some 5]), ("q".toList, [some 10, some 20, some 30, some 40, some 50])] }

def exSum : Fn := { name := "sum".toList, ev := fun l => some l.sum }

def exLag : Transformer := { names := ["p".toList, "q".toList], functions := [], agg := .unset, lags := some [0, 2, -1, 9], relative := false, dtArg := none }

def exAgg : Transformer := { names := ["q".toList], functions := [exSum], agg := .steps 2, lags := some [1, -2], relative := false, dtArg := none }

example : ∃ tr' out ms, transform exLag false exFrame = .ok (tr', out, ms) ∧
    out.cols[3]? = some ("p_lag_009".toList, [none, none, none, none, none]) ∧
    out.cols[5]? = some ("q_lag_002".toList, [none, none, some 10, some 20, some 30]) ∧
    out.cols[6]? = some ("q_lag_-001".toList, [some 20, some 30, some 40, some 50, none]) := by
  refine ⟨_, _, _, rfl, ?_⟩
  decide +kernel

example : Accepts exLag exFrame ∧ Regular exLag exFrame 1 := by
  refine ⟨⟨?_, by decide⟩, ⟨by decide, by decide, rfl, fun _ => rfl⟩⟩
  intro nm h
  simp only [exLag, List.mem_cons, List.not_mem_nil, or_false] at h
  rcases h with rfl | rfl
  · exact ⟨_, List.mem_cons_self⟩
  · exact ⟨_, List.mem_cons_of_mem _ List.mem_cons_self⟩

example : Accepts exAgg exFrame ∧ Regular exAgg exFrame 2 := by
  refine ⟨⟨?_, by decide⟩, ⟨by decide, by decide, rfl, fun h => by cases h⟩⟩
  intro nm h
  simp only [exAgg, List.mem_cons, List.not_mem_nil, or_false] at h
  subst h
  exact ⟨_, List.mem_cons_of_mem _ List.mem_cons_self⟩

example : ∃ tr' out ms, transform exAgg false exFrame = .ok (tr', out, ms) ∧
    out.cols[0]? = some ("q_30m_sum_lag_001".toList, [none, none, some 30, some 50, some 70]) ∧
    (ms.map (fun m => (m.start, m.stop)))[0]? = some (-1800000000000, 0) := by
  refine ⟨_, _, _, rfl, ?_⟩
  decide +kernel

/-- A 25 minute aggregation on a 15 minute grid sums two samples, although `agg_steps` is one. -/
example : rollAt 15 25 (25 / 15) (fun l => some l.sum) [some 1, some 2, some 4] 2 = some 6 := by decide +kernel

end PyF.Transform
