import Verif.Serve.Props
import Verif.Fmt.Props

/-! C263: forecasts of a backtest and forecasts served live, through formatter and forecaster. -/

namespace PyF.Serve
open PyF PyF.Quantile PyF.Transform PyF.Names PyF.Fmt

variable {I : Type} [DecidableEq I] {T : Nat}

/-- A row handed to a forecaster: its stamp and its named features. -/
abbrev Row (I : Type) := I × List (Str × Option ℚ)

/-- Row `k` of a frame. -/
def rowAt (x : IFrame I) (k : Nat) : Option (Row I) := (x.index[k]?).map (fun i => (i, x.cols.map (fun p => (p.1, (p.2[k]?).join))))

/-- The rows of a frame. -/
def allRows (x : IFrame I) : List (Row I) := (List.range x.index.length).filterMap (rowAt x)

/-- The last row of a frame, `x.iloc[[-1]]`. -/
def lastRow (x : IFrame I) : Option (Row I) := (x.index.getLast?).map (fun i => (i, x.cols.map (fun p => (p.1, (p.2.getLast?).join))))

/-- The rows with their hours. -/
def withHours (hour : I → Fin 24) (rows : List (Row I)) : List (Row I × Fin 24) := rows.map (fun r => (r, hour r.1))

omit [DecidableEq I] in
theorem allRows_getElem? (x : IFrame I) (k : Nat) (hk : k < x.index.length) : (allRows x)[k]? = rowAt x k := by
  have h : ∀ n, n ≤ x.index.length → (List.range n).filterMap (rowAt x) = (List.range n).map (fun (j : Nat) => ((rowAt x j).getD (x.index[k]'hk, []))) := by
    intro n hn
    induction n with
    | zero => rfl
    | succ n ih =>
      rw [List.range_succ, List.filterMap_append, List.map_append, ih (by omega)]
      congr 1
      have : rowAt x n = some (x.index[n]'(by omega), x.cols.map (fun p => (p.1, (p.2[n]?).join))) := by
        unfold rowAt
        rw [List.getElem?_eq_getElem (by omega)]
        rfl
      simp [this]
  unfold allRows
  rw [h _ (le_refl _), List.getElem?_map, List.getElem?_range hk]
  have : rowAt x k = some (x.index[k]'hk, x.cols.map (fun p => (p.1, (p.2[k]?).join))) := by
    unfold rowAt
    rw [List.getElem?_eq_getElem hk]
    rfl
  simp [this]

omit [DecidableEq I] in
theorem allRows_length (x : IFrame I) : (allRows x).length = x.index.length := by
  unfold allRows
  rw [List.length_filterMap_eq_countP]
  have : (List.range x.index.length).countP (fun (k : Nat) => (rowAt x k).isSome) = (List.range x.index.length).length := by
    rw [List.countP_eq_length]
    intro k hk
    have hk' := List.mem_range.1 hk
    unfold rowAt
    rw [List.getElem?_eq_getElem hk']
    rfl
  rw [this, List.length_range]

/-- C263: transform a data set for training and forecast the quantiles of all its rows (a backtest). Take any of the rows. With
the history up to its stamp only, the formatter after training and the same forecaster give, for the last row of the
transformed frame, the very same quantiles. All feature lags are non-negative; the forecaster is any function of the stamp and
the named features of a row. -/
theorem C263_live_equals_backtest (fm : Formatter) (idx : List I) (hnd : idx.Nodup) (F : Frame)
    (hF : WF idx.length F.cols) (hl : ∀ tr ∈ fm.transformers, NonNegLags tr) (fm1 : Formatter) (x tgt : IFrame I)
    (h : transformX fm idx F true = .ok (fm1, x, tgt)) (predict : Row I → Fin T → ℚ) (hour : I → Fin 24) (nq : Nat) (ed : ErrDistr T) (hw : Width nq ed)
    (out : List (Table T)) (hout : hourly predict nq ed (withHours hour (allRows x)) = .ok out) :
    out.length = x.index.length ∧ ∀ (k : Nat) (q : Table T), out[k]? = some q →
      ∃ (t : Nat) (fm2 : Formatter) (x' tgt' : IFrame I) (r : Row I), idx[t]? = x.index[k]? ∧
        transformX fm1 (idx.take (t + 1)) (truncate t F) false = .ok (fm2, x', tgt') ∧ lastRow x' = some r ∧
        hourly predict nq ed (withHours hour [r]) = .ok [q] := by
  have hrows : (withHours hour (allRows x)).length = x.index.length := by
    unfold withHours
    rw [List.length_map, allRows_length]
  have hlen : out.length = x.index.length := by
    have h1 := hout
    rw [C238_loop_is_row_by_row predict nq ed hw] at h1
    unfold predictQuantiles at h1
    rw [(mapM_inv _ _ _ h1).1, hrows]
  refine ⟨hlen, ?_⟩
  intro k q hq
  have hk : k < x.index.length := by
    rw [← hlen]
    exact (List.getElem?_eq_some_iff.1 hq).1
  obtain ⟨t, fm2, x', tgt', h1, h2, h3, h4⟩ := C81_serving_equals_training fm idx hnd F hF hl fm1 x tgt h k hk
  have hcols : x.cols.map (fun p => (p.1, (p.2[k]?).join)) = x'.cols.map (fun p => (p.1, (p.2.getLast?).join)) := by
    clear h1 h2 h3
    revert h4
    generalize x.cols = ps
    generalize x'.cols = qs
    intro h4
    induction h4 with
    | nil => rfl
    | cons hpq _ ih => rw [List.map_cons, List.map_cons, ih, hpq.1, hpq.2]
  refine ⟨t, fm2, x', tgt', (x.index[k]'hk, x.cols.map (fun p => (p.1, (p.2[k]?).join))), h1, h2, ?_, ?_⟩
  · unfold lastRow
    rw [h3, List.getElem?_eq_getElem hk, ← hcols]
    rfl
  · have hb := C238_batch_independent predict nq ed hw _ out hout [k] (by intro i hi; rw [hrows]; simp at hi; omega)
    have e1 : [k].filterMap (fun (i : Nat) => (withHours hour (allRows x))[i]?) = withHours hour [(x.index[k]'hk, x.cols.map (fun p => (p.1, (p.2[k]?).join)))] := by
      unfold withHours
      simp only [List.getElem?_map, List.filterMap_cons, List.filterMap_nil, allRows_getElem? x k hk]
      unfold rowAt
      rw [List.getElem?_eq_getElem hk]
      rfl
    have e2 : [k].filterMap (fun (i : Nat) => out[i]?) = [q] := by
      simp [hq]
    rw [e1, e2] at hb
    exact hb

/-- The lag 0 feature plus the hour's error quantiles -1 and `h`. -/
def exTable : ErrDistr 1 := .byHour (fun h _ => [-1, (h.val : ℚ)])

-- the backtest of the only complete row of the example of `Verif.Fmt`
example : ∃ fm' x tgt, transformX exFm [0, 15, 30, 45, 60, 75] exF true = .ok (fm', x, tgt) ∧
    (hourly (fun (r : Row Nat) (_ : Fin 1) => ((r.2.head?).bind Prod.snd).getD 0) 2 exTable (withHours (fun i => Fin.ofNat 24 (i / 60)) (allRows x))).toOption.map
      (List.map (fun q => q 0)) = some [[49, 51]] := by
  refine ⟨_, _, _, rfl, ?_⟩
  decide +kernel

-- the live forecast for the stamp 60 from the history up to 60
example : ∃ fm' x tgt, transformX exFm [0, 15, 30, 45, 60] (truncate 4 exF) false = .ok (fm', x, tgt) ∧
    (lastRow x).map (fun r => (hourly (fun (r : Row Nat) (_ : Fin 1) => ((r.2.head?).bind Prod.snd).getD 0) 2 exTable (withHours (fun i => Fin.ofNat 24 (i / 60)) [r])).toOption.map
      (List.map (fun q => q 0))) = some (some [[49, 51]]) := by
  refine ⟨_, _, _, rfl, ?_⟩
  decide +kernel

end PyF.Serve
