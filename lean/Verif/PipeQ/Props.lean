import Verif.PipeQ.Model
import Verif.Pipe.Props

/-! C317, C318: quantile forecasts of formatter and linear forecaster in other units and time zones. -/

namespace PyF.PipeQ
open PyF PyF.Names PyF.Transform PyF.Fmt PyF.FmtUnits PyF.Ols PyF.Ols.Spec PyF.Pipe

variable {I J : Type} [DecidableEq I] [DecidableEq J] {d m : ℕ}

/-! ### Lemmas -/

theorem quantile_scale (a : ℝ) (ha : 0 < a) (l : List ℝ) (q : ℝ) : quantile (l.map (a * ·)) q = a * quantile l q := by
  unfold quantile
  rw [← List.map_insertionSort (fun x y : ℝ => x ≤ y) (fun x y : ℝ => x ≤ y) (a * ·) l (fun x _ y _ => (mul_le_mul_iff_right₀ ha).symm)]
  have e : ∀ i : ℕ, ((l.insertionSort (· ≤ ·)).map (a * ·)).getD i 0 = a * (l.insertionSort (· ≤ ·)).getD i 0 := by
    intro i
    simp only [List.getD_eq_getElem?_getD, List.getElem?_map]
    cases (l.insertionSort (· ≤ ·))[i]? <;> simp
  simp only [List.length_map, e]
  ring

theorem group_map (errs : List (Fin 24 × (Fin m → ℝ))) (f : (Fin m → ℝ) → Fin m → ℝ) (h : Fin 24) :
    group (errs.map (fun p => (p.1, f p.2))) h = (group errs h).map (fun p => (p.1, f p.2)) := by
  unfold group
  rw [List.map_map]
  have : (Prod.fst ∘ fun p : Fin 24 × (Fin m → ℝ) => (p.1, f p.2)) = Prod.fst := rfl
  rw [this]
  split
  · rfl
  · rw [List.filter_map]; rfl

theorem group_hours (errs : List (Fin 24 × (Fin m → ℝ))) (σ : Equiv.Perm (Fin 24)) (h : Fin 24) :
    group (errs.map (fun p => (σ p.1, p.2))) (σ h) = (group errs h).map (fun p => (σ p.1, p.2)) := by
  unfold group
  rw [List.map_map]
  have : (Prod.fst ∘ fun p : Fin 24 × (Fin m → ℝ) => (σ p.1, p.2)) = σ ∘ Prod.fst := rfl
  rw [this, ← List.map_map, List.dedup_map_of_injective σ.injective, List.length_map]
  split
  · rfl
  · rw [List.filter_map]
    congr 1
    apply List.filter_congr
    intro p _
    simp [Function.comp]

theorem errTable_scale (a : ℝ) (ha : 0 < a) (qv : List ℝ) (errs : List (Fin 24 × (Fin m → ℝ))) :
    errTable qv (errs.map (fun p => (p.1, fun j => a * p.2 j))) = (errTable qv errs).map (fun (t : Table m) h j => (t h j).map (a * ·)) := by
  unfold errTable
  split
  · rfl
  · simp only [Except.map]
    congr 1
    funext h j
    rw [List.map_map]
    apply List.map_congr_left
    intro q _
    rw [group_map errs (fun v j => a * v j) h, List.map_map]
    have := quantile_scale a ha ((group errs h).map (fun p => p.2 j)) q
    rw [List.map_map] at this
    exact this

theorem errTable_hours (qv : List ℝ) (errs : List (Fin 24 × (Fin m → ℝ))) (σ : Equiv.Perm (Fin 24)) :
    errTable qv (errs.map (fun p => (σ p.1, p.2))) = (errTable qv errs).map (fun (t : Table m) h => t (σ.symm h)) := by
  unfold errTable
  split
  · rfl
  · simp only [Except.map]
    congr 1
    funext h j
    have := group_hours errs σ (σ.symm h)
    rw [Equiv.apply_symm_apply] at this
    rw [this, List.map_map]
    rfl

theorem valRows_map {α β : Type} (f : α → β) (vr : Option ℝ) (l : List α) : valRows vr (l.map f) = (valRows vr l).map f := by
  unfold valRows
  cases vr with
  | none => rfl
  | some r => simp only [List.length_map, List.map_drop]

theorem trainRows_map (f : Row d m → Row d m) (vr : Option ℝ) (l : List (Row d m)) : trainRows vr (l.map f) = (trainRows vr l).map f := by
  unfold trainRows
  cases vr with
  | none => rfl
  | some r => simp only [List.length_map, List.map_take]

omit [DecidableEq I] in
theorem dataOf_length {x y : IFrame I} {data : List (Row d m)} (h : dataOf d m x y = .ok data) : data.length = x.index.length := by
  unfold dataOf at h
  split at h
  · cases h; simp
  · cases h

/-- The quantile forecasts in other units. -/
noncomputable def outQ (a b : ℚ) (l : List (I × (Fin m → List ℝ))) : List (I × (Fin m → List ℝ)) :=
  l.map (fun p => (p.1, fun j => (p.2 j).map (fun v => (a : ℝ) * v + (b : ℝ))))

/-! ### C317: units -/

/-- C317: raw data in other units (`a v + b`, `a > 0`), with aggregation functions that follow the change: where formatter and linear forecaster can be fitted on
the data they can be fitted on the data in the new units, and then all quantile forecasts on any newer data are the old ones in the new units: same rows, same
hours, same levels, same exceptions. The numerical routines return best models and no feature is a combination of the others. -/
theorem C317_units (a b : ℚ) (ha : 0 < a) (S S' : Solver d m) (vr : Option ℝ) (qv : List ℝ) (hour : I → Fin 24) (fm : Formatter)
    (hx : ∀ tr ∈ fm.transformers, UnitfulTr (fun v => a * v + b) tr) (hy : ∀ tr ∈ fm.targets, UnitfulTr (fun v => a * v + b) tr)
    (idx : List I) (hnd : idx.Nodup) (F : Frame) (hF : WF idx.length F.cols)
    (hI : ∀ rows : List (Row d m), FittedOn d m vr fm idx F rows → Indep rows ∧ IsBest 0 rows (S 0 rows))
    (hS' : ∀ rows : List (Row d m), FittedOn d m vr fm idx (frameIn (fun v => a * v + b) F) rows → IsBest 0 rows (S' 0 rows))
    (fm' : Formatter) (c : Fitted d m) (h : fitPipe S "linear" vr qv hour fm idx F = .ok (fm', c)) :
    ∃ c' : Fitted d m, fitPipe S' "linear" vr qv hour fm idx (frameIn (fun v => a * v + b) F) = .ok (fm', c') ∧
      ∀ (idx' : List I) (G : Frame), quantPipe hour c' fm' idx' (frameIn (fun v => a * v + b) G)
        = (quantPipe hour c fm' idx' G).map (outQ a b) := by
  have haR : (0 : ℝ) < (a : ℝ) := by exact_mod_cast ha
  unfold fitPipe at h
  cases h1 : transformX fm idx F true with
  | error e => rw [h1] at h; cases h
  | ok r =>
    obtain ⟨fm1, x, y⟩ := r
    rw [h1] at h
    simp only at h
    cases h2 : dataOf d m x y with
    | error e => rw [h2] at h; cases h
    | ok data =>
      rw [h2] at h
      simp only at h
      have hlen := dataOf_length h2
      have hsnd : ((x.index.map hour).zip data).map Prod.snd = data := List.map_snd_zip (by simp [hlen])
      cases h3 : fitLin S "linear" vr qv ((x.index.map hour).zip data) with
      | error e => rw [h3] at h; cases h
      | ok c0 =>
        rw [h3] at h
        simp only [Except.ok.injEq, Prod.mk.injEq] at h
        obtain ⟨rfl, rfl⟩ := h
        unfold fitLin at h3
        rw [hsnd] at h3
        simp only [fit_linear] at h3
        split at h3
        · cases h3
        rename_i hne
        set c0' := S 0 (trainRows vr data) with hc0
        cases h4 : errTable qv ((valRows vr ((x.index.map hour).zip data)).map (fun p => (p.1, fun j => p.2.2 j - pred c0' p.2.1 j))) with
        | error e => rw [h4] at h3; cases h3
        | ok t =>
          rw [h4] at h3
          simp only [Except.ok.injEq] at h3
          subst h3
          have hxy : x.index.length = y.index.length := by
            obtain ⟨_, _, _, _, _, _, h5⟩ := C24_rows_aligned fm idx hnd F hF fm1 x y h1
            rw [h5.2.2]
          have h1' := C272_units (fun v => a * v + b) fm hx hy idx F true
          rw [h1] at h1'
          simp only [Except.map] at h1'
          have h2' := dataOf_in (d := d) (m := m) a b x y hxy
          rw [h2] at h2'
          simp only [Except.map] at h2'
          have hD : ∀ _ : Fin d, (a : ℝ) ≠ 0 := fun _ => haR.ne'
          obtain ⟨hind, hbest⟩ := hI _ ⟨fm1, x, y, data, h1, h2, rfl⟩
          have hbest' := hS' _ ⟨fm1, _, _, _, h1', h2', rfl⟩
          set U := units (d := d) (m := m) (fun _ => (a : ℝ)) (fun _ => (b : ℝ)) (fun _ => (a : ℝ)) (fun _ => (b : ℝ)) with hU
          set c1 := S' 0 (trainRows vr (data.map U)) with hc1
          have key := fun (r : Fin d → ℝ) (j : Fin m) => C265_units S S' vr data (fun _ => (a : ℝ)) (fun _ => (b : ℝ)) (fun _ => (a : ℝ)) (fun _ => (b : ℝ)) hD hind hbest
            hbest' _ _ (fit_linear S vr data) (fit_linear S' vr _) r j
          have hzip : (x.index.map hour).zip (data.map U) = ((x.index.map hour).zip data).map (fun p => (p.1, U p.2)) := by
            rw [List.zip_map_right]; rfl
          have herr : (valRows vr ((x.index.map hour).zip (data.map U))).map (fun p => (p.1, fun j => p.2.2 j - pred c1 p.2.1 j))
              = ((valRows vr ((x.index.map hour).zip data)).map (fun p => (p.1, fun j => p.2.2 j - pred c0' p.2.1 j))).map (fun p => (p.1, fun j => (a : ℝ) * p.2 j)) := by
            rw [hzip, valRows_map, List.map_map, List.map_map]
            apply List.map_congr_left
            intro p _
            simp only [Function.comp, Prod.mk.injEq, true_and]
            funext j
            have := key p.2.1 j
            simp only [hU, units]
            rw [this]
            ring
          refine ⟨⟨c1, fun h j => (t h j).map ((a : ℝ) * ·)⟩, ?_, ?_⟩
          · unfold fitPipe
            rw [h1']
            simp only
            rw [h2']
            simp only
            have hidx : (iframeIn (fun v => a * v + b) x).index = x.index := rfl
            rw [hidx]
            unfold fitLin
            have hsnd' : ((x.index.map hour).zip (data.map U)).map Prod.snd = data.map U := List.map_snd_zip (by simp [hlen])
            rw [hsnd']
            simp only [fit_linear]
            have hne' : ((trainRows vr (data.map U)).isEmpty || (valRows vr ((x.index.map hour).zip (data.map U))).isEmpty) = false := by
              rw [hzip, valRows_map, trainRows_map]
              simpa using hne
            rw [hne']
            simp only [Bool.false_eq_true, if_false]
            rw [herr, errTable_scale (a : ℝ) haR, h4]
            rfl
          · intro idx' G
            unfold quantPipe
            rw [predict_in _ fm1 (transformX_unitful _ fm hx idx F true fm1 x y h1)]
            cases transformX fm1 idx' G false with
            | error e => rfl
            | ok r =>
              obtain ⟨fm2, x2, y2⟩ := r
              simp only [Except.map]
              unfold quantRows
              simp only
              rw [predictRows_in a b _ _ x2 key]
              cases predictRows c0' x2 with
              | error e => rfl
              | ok l =>
                simp only [Except.map, outIn, outQ, List.map_map]
                congr 1
                apply List.map_congr_left
                intro p _
                simp only [Function.comp, Prod.mk.injEq, true_and, List.map_map]
                funext j
                apply List.map_congr_left
                intro e _
                simp only [Function.comp]
                ring

/-! ### C318: time stamps -/

/-- C318: the time stamps are moved such that the hours of the day are exchanged among themselves (another time zone, by whole hours; or another day). The fitted model
keeps its coefficients, its error distributions move along with the hours, and all quantile forecasts stay the same, under the moved time stamps; exceptions too. -/
theorem C318_time_stamps (g : I → J) (hg : Function.Injective g) (hourI : I → Fin 24) (hourJ : J → Fin 24) (σ : Equiv.Perm (Fin 24))
    (hσ : ∀ i, hourJ (g i) = σ (hourI i)) (S : Solver d m) (kind : String) (vr : Option ℝ) (qv : List ℝ) (fm : Formatter) (idx : List I) (F : Frame) :
    fitPipe S kind vr qv hourJ fm (idx.map g) F
      = (fitPipe S kind vr qv hourI fm idx F).map (fun r => (r.1, ⟨r.2.coef, fun h => r.2.table (σ.symm h)⟩)) ∧
    ∀ (c : Fitted d m) (fm' : Formatter) (idx' : List I) (G : Frame),
      quantPipe hourJ ⟨c.coef, fun h => c.table (σ.symm h)⟩ fm' (idx'.map g) G
        = (quantPipe hourI c fm' idx' G).map (fun l => l.map (fun p => (g p.1, p.2))) := by
  have hcomp : (hourJ ∘ g) = σ ∘ hourI := funext hσ
  constructor
  · unfold fitPipe
    rw [C273_time_stamps g hg]
    cases transformX fm idx F true with
    | error e => rfl
    | ok r =>
      obtain ⟨fm1, x, y⟩ := r
      simp only [Except.map]
      have e : dataOf d m (relabel g x) (relabel g y) = dataOf d m x y := by
        unfold dataOf
        rw [accepted_relabel, accepted_relabel]
        simp [relabel]
      rw [e]
      cases dataOf d m x y with
      | error e => rfl
      | ok data =>
        simp only
        have hz : ((relabel g x).index.map hourJ).zip data = ((x.index.map hourI).zip data).map (fun p => (σ p.1, p.2)) := by
          have : (relabel g x).index = x.index.map g := rfl
          rw [this, List.map_map, hcomp, ← List.map_map, List.zip_map_left]
          rfl
        rw [hz]
        generalize (x.index.map hourI).zip data = rows
        have hf : fitLin S kind vr qv (rows.map (fun p => (σ p.1, p.2)))
            = (fitLin S kind vr qv rows).map (fun c => ⟨c.coef, fun h => c.table (σ.symm h)⟩) := by
          unfold fitLin
          have e1 : (rows.map (fun p => (σ p.1, p.2))).map Prod.snd = rows.map Prod.snd := by rw [List.map_map]; rfl
          rw [e1, valRows_map]
          cases Ols.fit S kind vr (rows.map Prod.snd) with
          | error e => rfl
          | ok c =>
            simp only [List.isEmpty_map]
            split
            · rfl
            · have e2 : ((valRows vr rows).map (fun p => (σ p.1, p.2))).map (fun p => (p.1, fun j => p.2.2 j - pred c p.2.1 j))
                  = ((valRows vr rows).map (fun p => (p.1, fun j => p.2.2 j - pred c p.2.1 j))).map (fun p => (σ p.1, p.2)) := by
                rw [List.map_map, List.map_map]; rfl
              rw [e2, errTable_hours]
              cases errTable qv ((valRows vr rows).map (fun p => (p.1, fun j => p.2.2 j - pred c p.2.1 j))) <;> rfl
        rw [hf]
        cases fitLin S kind vr qv rows <;> rfl
  · intro c fm' idx' G
    unfold quantPipe
    rw [C273_time_stamps g hg]
    cases transformX fm' idx' G false with
    | error e => rfl
    | ok r =>
      obtain ⟨fm1, x, y⟩ := r
      simp only [Except.map]
      unfold quantRows predictRows
      rw [accepted_relabel]
      by_cases h : accepted d x = true
      · rw [if_pos h, if_pos h]
        simp [relabel, List.zipIdx_map, Function.comp_def, Except.map, hσ]
      · rw [if_neg h, if_neg h]; rfl

/-! ### C319: back-testing and live use -/

/-- C319: take a fitted forecaster and a row `k` of the training frame (all feature lags non-negative, only generated features). The quantile forecasts for it within the
whole frame are the last ones of the pipeline when it is given only the raw data up to that time. -/
theorem C319_backtest_is_live (hour : I → Fin 24) (c : Fitted d m) (fm : Formatter) (haug : fm.augment = false) (idx : List I) (hnd : idx.Nodup) (F : Frame)
    (hF : WF idx.length F.cols) (hl : ∀ tr ∈ fm.transformers, NonNegLags tr) (fm1 : Formatter) (x tgt : IFrame I)
    (h : transformX fm idx F true = .ok (fm1, x, tgt)) (hd : x.cols.length = d) (k : ℕ) (hk : k < x.index.length) :
    ∃ (t : ℕ) (i : I) (y : Fin m → List ℝ) (bt live : List (I × (Fin m → List ℝ))), idx[t]? = some i ∧ quantRows hour c x = .ok bt ∧
      bt[k]? = some (i, y) ∧ quantPipe hour c fm1 (idx.take (t + 1)) (truncate t F) = .ok live ∧ live.getLast? = some (i, y) := by
  obtain ⟨t, i, y, bt, live, h1, h2, h3, h4, h5⟩ := C285_backtest_is_live (m := m) c.coef fm haug idx hnd F hF hl fm1 x tgt h hd k hk
  refine ⟨t, i, fun j => (c.table (hour i) j).map (fun e => y j + e), bt.map (fun p => (p.1, fun j => (c.table (hour p.1) j).map (fun e => p.2 j + e))),
    live.map (fun p => (p.1, fun j => (c.table (hour p.1) j).map (fun e => p.2 j + e))), h1, ?_, ?_, ?_, ?_⟩
  · unfold quantRows; rw [h2]; rfl
  · rw [List.getElem?_map, h3]; rfl
  · unfold predictPipe at h4
    unfold quantPipe
    cases h6 : transformX fm1 (idx.take (t + 1)) (truncate t F) false with
    | error e => rw [h6] at h4; cases h4
    | ok r =>
      obtain ⟨f2, x2, y2⟩ := r
      rw [h6] at h4
      simp only at h4 ⊢
      unfold quantRows
      rw [h4]
      rfl
  · rw [List.getLast?_map, h5]; rfl

end PyF.PipeQ
