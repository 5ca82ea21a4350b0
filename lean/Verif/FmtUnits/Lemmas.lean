import Verif.FmtUnits.Spec
import Verif.Transform.Lemmas

namespace PyF.FmtUnits
open PyF.Names PyF.Transform PyF.Fmt

variable {I J : Type}

theorem sample_in (u : ℚ → ℚ) (c : Col) (i : Int) : sample (colIn u c) i = (sample c i).map u := by
  unfold sample colIn
  split
  · rw [List.getElem?_map]
    cases c[i.toNat]? with
    | none => rfl
    | some v => cases v <;> rfl
  · rfl

theorem colIn_length (u : ℚ → ℚ) (c : Col) : (colIn u c).length = c.length := by simp [colIn]

theorem shift_in (u : ℚ → ℚ) (l : Int) (c : Col) : shift l (colIn u c) = colIn u (shift l c) := by
  unfold shift
  rw [colIn_length]
  simp only [colIn, List.map_map]
  apply List.map_congr_left
  intro t _
  exact sample_in u c _

theorem window_in (u : ℚ → ℚ) (dt a : Nat) (c : Col) (t : Nat) :
    window dt a (colIn u c) t = (window dt a c t).map (Option.map u) := by
  unfold window
  rw [List.map_map]
  apply List.map_congr_left
  intro s _
  exact sample_in u c _

theorem filterMap_in (u : ℚ → ℚ) (l : List (Option ℚ)) :
    (l.map (Option.map u)).filterMap id = (l.filterMap id).map u := by
  induction l with
  | nil => rfl
  | cons a l ih => cases a <;> simpa using ih

theorem rolling_in (u : ℚ → ℚ) (dt a m : Nat) (f : List ℚ → Option ℚ) (hf : Unitful u f) (c : Col) :
    rolling dt a m f (colIn u c) = colIn u (rolling dt a m f c) := by
  unfold rolling
  rw [colIn_length]
  simp only [colIn, List.map_map]
  apply List.map_congr_left
  intro t _
  simp only [Function.comp, rollAt]
  rw [show List.map (Option.map u) c = colIn u c from rfl, window_in, filterMap_in, List.length_map]
  split
  · rfl
  · exact hf _

theorem baseCols_in (u : ℚ → ℚ) (tr : Transformer) (hu : UnitfulTr u tr) (a : Agg) (dt : Nat) (nm : Str) (c : Col) :
    baseCols tr a dt nm (colIn u c) = colsIn u (baseCols tr a dt nm c) := by
  unfold baseCols colsIn
  unfold UnitfulTr at hu
  cases hfs : tr.functions with
  | nil => rfl
  | cons f fs =>
    simp only [List.map_map]
    apply List.map_congr_left
    intro g hg
    simp only [Function.comp]
    rw [rolling_in u _ _ _ _ (hu g (by rw [hfs]; exact hg))]

theorem genCols_in (u : ℚ → ℚ) (tr : Transformer) (hu : UnitfulTr u tr) (a : Agg) (dt : Nat) (nm : Str) (c : Col) :
    genCols tr a dt nm (colIn u c) = colsIn u (genCols tr a dt nm c) := by
  unfold genCols
  cases tr.lags with
  | none => exact baseCols_in u tr hu a dt nm c
  | some ls =>
    simp only [baseCols_in u tr hu, colsIn, List.map_flatMap, List.map_map]
    congr 1
    funext l
    apply List.map_congr_left
    intro p _
    simp only [Function.comp, shift_in]

theorem find_in (u : ℚ → ℚ) (cols : List (Str × Col)) (nm : Str) :
    (colsIn u cols).find? (fun p => p.1 = nm) = (cols.find? (fun p => p.1 = nm)).map (fun p => (p.1, colIn u p.2)) := by
  unfold colsIn
  rw [List.find?_map]
  rfl

theorem any_in (u : ℚ → ℚ) (cols : List (Str × Col)) (nm : Str) :
    (colsIn u cols).any (fun p => p.1 = nm) = cols.any (fun p => p.1 = nm) := by
  unfold colsIn
  rw [List.any_map]
  rfl

theorem get_in (u : ℚ → ℚ) (F : Frame) (nm : Str) : (frameIn u F).get nm = colIn u (F.get nm) := by
  unfold Frame.get frameIn
  rw [find_in]
  cases F.cols.find? (fun p => p.1 = nm) <;> rfl

theorem colsIn_append (u : ℚ → ℚ) (A B : List (Str × Col)) : colsIn u (A ++ B) = colsIn u A ++ colsIn u B := by
  simp [colsIn]

theorem transform_in (u : ℚ → ℚ) (tr : Transformer) (hu : UnitfulTr u tr) (aug : Bool) (F : Frame) :
    transform tr aug (frameIn u F) = (transform tr aug F).map (fun r => (r.1, frameIn u r.2.1, r.2.2)) := by
  unfold transform
  have h1 : tr.names.all (fun nm => (frameIn u F).cols.any (fun p => p.1 = nm))
      = tr.names.all (fun nm => F.cols.any (fun p => p.1 = nm)) := by
    congr 1
    funext nm
    exact any_in u F.cols nm
  have h2 : samplingTime tr (frameIn u F) = samplingTime tr F := rfl
  rw [h1, h2]
  split
  · split
    · rfl
    · simp only [Except.map, get_in, genCols_in u tr hu]
      have e : ∀ (A B : List (Str × Col)), frameIn u { dt := F.dt, cols := A ++ B }
          = { dt := F.dt, cols := colsIn u A ++ colsIn u B } := fun A B => by simp [frameIn, colsIn_append]
      rw [e]
      have e2 : (if aug then (frameIn u F).cols else []) = colsIn u (if aug then F.cols else []) := by cases aug <;> rfl
      rw [e2]
      simp only [colsIn, List.map_flatMap]
      rfl
  · rfl

theorem applyAll_in (u : ℚ → ℚ) (trs : List Transformer) (hu : ∀ tr ∈ trs, UnitfulTr u tr) (F : Frame) :
    applyAll trs (frameIn u F) = (applyAll trs F).map (fun r => (r.1, frameIn u r.2)) := by
  induction trs generalizing F with
  | nil => rfl
  | cons tr trs ih =>
    unfold applyAll
    rw [transform_in u tr (hu tr (by simp))]
    cases transform tr true F with
    | error e => rfl
    | ok r =>
      obtain ⟨tr', F', ms⟩ := r
      simp only [Except.map]
      rw [ih (fun t ht => hu t (by simp [ht]))]
      cases applyAll trs F' with
      | error e => rfl
      | ok r => rfl

theorem targetCols_in (u : ℚ → ℚ) (trs : List Transformer) (hu : ∀ tr ∈ trs, UnitfulTr u tr) (F : Frame) :
    targetCols trs (frameIn u F) = (targetCols trs F).map (fun r => (r.1, colsIn u r.2)) := by
  induction trs with
  | nil => rfl
  | cons tr trs ih =>
    unfold targetCols
    rw [transform_in u tr (hu tr (by simp))]
    cases transform tr false F with
    | error e => rfl
    | ok r =>
      obtain ⟨tr', F', ms⟩ := r
      simp only [Except.map]
      rw [ih (fun t ht => hu t (by simp [ht]))]
      cases targetCols trs F with
      | error e => rfl
      | ok r => simp only [Except.map, frameIn, colsIn_append]

theorem newCols_in (u : ℚ → ℚ) (F : Frame) (cols : List (Str × Col)) :
    newCols (frameIn u F) (colsIn u cols) = colsIn u (newCols F cols) := by
  unfold newCols
  have e : ∀ nm : Str, (frameIn u F).cols.any (fun q => q.1 = nm) = F.cols.any (fun q => q.1 = nm) :=
    fun nm => any_in u F.cols nm
  simp only [e]
  unfold colsIn
  rw [List.filter_map]
  rfl

theorem notNa_in (u : ℚ → ℚ) (n : Nat) (cols : List (Str × Col)) : notNa n (colsIn u cols) = notNa n cols := by
  unfold notNa colsIn
  apply List.map_congr_left
  intro t _
  rw [List.all_map]
  congr 1
  funext p
  simp only [Function.comp, colIn, List.getElem?_map]
  cases p.2[t]? with
  | none => rfl
  | some v => cases v <;> rfl

theorem keep_map {α β : Type} (f : α → β) (m : List Bool) (l : List α) : keep m (l.map f) = (keep m l).map f := by
  induction m generalizing l with
  | nil => cases l <;> rfl
  | cons b m ih =>
    cases l with
    | nil => cases b <;> rfl
    | cons a l => cases b <;> simp [keep, ih]

theorem keepCols_in (u : ℚ → ℚ) (m : List Bool) (cols : List (Str × Col)) :
    (colsIn u cols).map (fun p => (p.1, keep m p.2)) = colsIn u (cols.map (fun p => (p.1, keep m p.2))) := by
  unfold colsIn colIn
  rw [List.map_map, List.map_map]
  apply List.map_congr_left
  intro p _
  simp only [Function.comp, keep_map]

end PyF.FmtUnits
