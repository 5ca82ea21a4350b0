import Verif.Calendar.Model
import Mathlib.Tactic.Linarith
import Mathlib.Data.Rat.Cast.Order

namespace PyF.Calendar

/-! ### Specification -/

/-- Two time stamps show the same weekday and the same hour and minute on the wall clock: they differ, after dropping
the seconds, by whole weeks. -/
def SameWallMinute (s r : Stamp) : Prop := ∃ k : Int, s.wall / 60 = r.wall / 60 + k * 10080

/-- The names of the columns in a row. -/
def names (l : List (Feature × ℚ)) : List Feature := l.map Prod.fst

/-! ### C30 -/

/-- C30 (day of the week): the day is the number of whole days since the last Monday midnight of the wall clock. -/
theorem C30_day_of_week (s : Stamp) (k : Int) :
    dayofweek s = k ↔ 0 ≤ k ∧ k < 7 ∧ ∃ w : Int, w * (7 * 86400) + k * 86400 ≤ s.wall ∧ s.wall < w * (7 * 86400) + (k + 1) * 86400 := by
  unfold dayofweek
  constructor
  · intro h
    refine ⟨by omega, by omega, s.wall / 86400 / 7, by omega, by omega⟩
  · rintro ⟨h0, h7, w, h1, h2⟩
    omega

/-- C30 (ranges): hour in [0,24), day in [0,7), minute of the day in [0,1440), and the latter's hour is the hour. -/
theorem C30_ranges (s : Stamp) : 0 ≤ hour s ∧ hour s < 24 ∧ 0 ≤ dayofweek s ∧ dayofweek s < 7 ∧ 0 ≤ minuteofday s ∧
    minuteofday s < 1440 ∧ minuteofday s / 60 = hour s := by
  unfold minuteofday hour minute dayofweek
  omega

/-- C30 (exact information): two rows get the same calendar features iff they show the same weekday, hour and minute. -/
theorem C30_same_features_iff (s r : Stamp) : three s = three r ↔ SameWallMinute s r := by
  simp only [three, List.cons.injEq, Prod.mk.injEq, true_and, and_true, Int.cast_inj]
  unfold SameWallMinute minuteofday hour minute dayofweek
  constructor
  · rintro ⟨h1, h2, h3⟩
    refine ⟨(s.wall / 60 - r.wall / 60) / 10080, ?_⟩
    omega
  · rintro ⟨k, hk⟩
    omega

/-- C30 (own time stamp only): every row's features are a function of that row's time stamp, the formatter's flag and
whether the frame is localised: changing other rows, or the number of rows, changes nothing. -/
theorem C30_row_local (tz : Option Bool) (x y : Frame) (hxy : x.aware = y.aware) (tz1 tz2 : Option Bool)
    (X Y : List (List (Feature × ℚ))) (hx : addTime tz x = .ok (tz1, X)) (hy : addTime tz y = .ok (tz2, Y)) :
    X.length = x.rows.length ∧ tz1 = tz2 ∧
      ∀ (i j : Nat) (s : Stamp), x.rows[i]? = some s → y.rows[j]? = some s → X[i]? = Y[j]? ∧ (X[i]?).isSome := by
  have key : ∀ z : Frame, ∀ t Z, addTime tz z = .ok (t, Z) → ∃ f : Stamp → List (Feature × ℚ), Z = z.rows.map f ∧
      t = some ((tz.getD z.aware)) ∧
      f = (fun s => if tz.getD z.aware = true then three s ++ [(.utcOffset, if z.aware then utcOffset s else 0)] else three s) := by
    intro z t Z h
    unfold addTime at h
    split at h
    · cases h
    · cases tz with
      | none =>
        cases hz : z.aware <;> simp only [hz, if_true, Bool.false_eq_true, if_false, Except.ok.injEq, Prod.mk.injEq] at h <;>
          exact ⟨_, h.2.symm, by simpa using h.1.symm, by simp⟩
      | some b =>
        cases b
        · simp only [Except.ok.injEq, Prod.mk.injEq] at h
          exact ⟨_, h.2.symm, by simpa using h.1.symm, by simp⟩
        · cases hz : z.aware
          · simp only [hz, Bool.false_eq_true, if_false, Except.ok.injEq, Prod.mk.injEq] at h
            exact ⟨_, h.2.symm, by simpa using h.1.symm, by simp⟩
          · simp only [hz, if_true] at h
            split at h
            · cases h
            · simp only [Except.ok.injEq, Prod.mk.injEq] at h
              exact ⟨_, h.2.symm, by simpa using h.1.symm, by simp⟩
  obtain ⟨f, rfl, t1, hf⟩ := key x tz1 X hx
  obtain ⟨g, rfl, t2, hg⟩ := key y tz2 Y hy
  have hfg : f = g := by rw [hf, hg, hxy]
  subst hfg
  refine ⟨by simp, by rw [t1, t2, hxy], ?_⟩
  intro i j s hi hj
  simp [List.getElem?_map, hi, hj]

/-- The set of columns produced in the state `b`. -/
def columnsOf (b : Bool) : List Feature := if b then [.hour, .dayofweek, .minuteofday, .utcOffset] else [.hour, .dayofweek, .minuteofday]

theorem addTime_some (b : Bool) (x : Frame) (tz' : Option Bool) (X : List (List (Feature × ℚ)))
    (h : addTime (some b) x = .ok (tz', X)) : tz' = some b ∧ ∀ r ∈ X, names r = columnsOf b := by
  unfold addTime at h
  split at h
  · cases h
  · cases b
    · simp only [Except.ok.injEq, Prod.mk.injEq] at h
      obtain ⟨rfl, rfl⟩ := h
      refine ⟨rfl, ?_⟩
      intro r hr
      obtain ⟨s, _, rfl⟩ := List.mem_map.1 hr
      rfl
    · simp only at h
      split at h
      · split at h
        · cases h
        · simp only [Except.ok.injEq, Prod.mk.injEq] at h
          obtain ⟨rfl, rfl⟩ := h
          refine ⟨rfl, ?_⟩
          intro r hr
          obtain ⟨s, _, rfl⟩ := List.mem_map.1 hr
          rfl
      · simp only [Except.ok.injEq, Prod.mk.injEq] at h
        obtain ⟨rfl, rfl⟩ := h
        refine ⟨rfl, ?_⟩
        intro r hr
        obtain ⟨s, _, rfl⟩ := List.mem_map.1 hr
        rfl

theorem history_some (b : Bool) (xs : List Frame) : history (some b) xs = some b := by
  induction xs with
  | nil => rfl
  | cons x xs ih =>
    unfold history
    cases h : addTime (some b) x with
    | error e => exact ih
    | ok r =>
      obtain ⟨tz', X⟩ := r
      rw [(addTime_some b x tz' X h).1]
      exact ih

/-- C30 (sticky columns): the first frame with rows decides the columns: after it, whatever is transformed in between,
every successful call adds exactly those columns to every row: with the UTC offset iff that first frame was localised. -/
theorem C30_columns_fixed_by_first_frame (first : Frame) (hne : first.rows ≠ []) (between : List Frame) (x : Frame)
    (tz' : Option Bool) (X : List (List (Feature × ℚ)))
    (h : addTime (history none (first :: between)) x = .ok (tz', X)) :
    (∃ t Y, addTime none first = .ok (t, Y) ∧ ∀ r ∈ Y, names r = columnsOf first.aware) ∧
      ∀ r ∈ X, names r = columnsOf first.aware := by
  have h1 : ∃ Y, addTime none first = .ok (some first.aware, Y) ∧ ∀ r ∈ Y, names r = columnsOf first.aware := by
    unfold addTime
    rw [if_neg hne]
    cases ha : first.aware
    · refine ⟨_, rfl, ?_⟩
      intro r hr
      obtain ⟨s, _, rfl⟩ := List.mem_map.1 hr
      rfl
    · refine ⟨_, rfl, ?_⟩
      intro r hr
      obtain ⟨s, _, rfl⟩ := List.mem_map.1 hr
      rfl
  obtain ⟨Y, hY, hYc⟩ := h1
  refine ⟨⟨_, Y, hY, hYc⟩, ?_⟩
  unfold history at h
  rw [hY] at h
  simp only [history_some] at h
  exact (addTime_some _ _ _ _ h).2

/-- C30 (offset values): after a localised first frame, localised frames get their true UTC offset and naive frames
get 0. -/
theorem C30_offset_values (x : Frame) (tz' : Option Bool) (X : List (List (Feature × ℚ)))
    (h : addTime (some true) x = .ok (tz', X)) (i : Nat) (s : Stamp) (hs : x.rows[i]? = some s) :
    ∃ r, X[i]? = some r ∧ r.take 3 = three s ∧ r[3]? = some (.utcOffset, if x.aware then (s.off : ℚ) / 3600 else 0) := by
  unfold addTime at h
  split at h
  · cases h
  · simp only at h
    split at h
    · rename_i ha
      split at h
      · cases h
      · simp only [Except.ok.injEq, Prod.mk.injEq] at h
        obtain ⟨-, rfl⟩ := h
        refine ⟨three s ++ [(.utcOffset, utcOffset s)], by simp [hs], by simp [three], by simp [three, ha, utcOffset]⟩
    · rename_i ha
      simp only [Except.ok.injEq, Prod.mk.injEq] at h
      obtain ⟨-, rfl⟩ := h
      refine ⟨three s ++ [(.utcOffset, 0)], by simp [hs], by simp [three], by simp [three, ha]⟩

/-- C30 (acceptance, with the defect): a non-empty frame is refused iff it is localised, has no column, and an earlier
frame was localised: the very same frame is accepted as the first one. -/
theorem C30_refused_iff (tz : Option Bool) (x : Frame) (hne : x.rows ≠ []) :
    (∃ e, addTime tz x = .error e) ↔ tz = some true ∧ x.aware = true ∧ x.ncols = 0 := by
  unfold addTime
  rw [if_neg hne]
  rcases tz with _ | _ | _
  · cases x.aware <;> simp
  · simp
  · cases ha : x.aware
    · simp
    · by_cases hn : x.ncols = 0
      · simp [hn]
      · simp [hn]

/-! ### C31 -/

theorem setWhere_get (rows : List Stamp) (ds : List Int) (v : Nat) (col : List Nat) (i : Nat) (s : Stamp) (c : Nat)
    (hs : rows[i]? = some s) (hc : col[i]? = some c) : (setWhere rows ds v col)[i]? = some (if date s ∈ ds then v else c) := by
  simp [setWhere, List.getElem?_zipWith, hs, hc]

/-- C31: each row has one label, decided by its date: 3 for holidays, otherwise 2 for long weekends, otherwise 1 for
bridges, otherwise 0. -/
theorem C31_label (api : Api) (year : Int → Int) (rows : List Stamp) (col : List Nat)
    (h : addHolidays api year rows = .ok col) :
    ∃ hs br lw : List Int, col.length = rows.length ∧
      hs = api.holidays (rows.map (fun s => year (date s))).dedup ∧
      (∃ a b, rows.head? = some a ∧ rows.getLast? = some b ∧ api.spot (a.wall - 172800) (b.wall + 172800) hs = (br, lw)) ∧
      ∀ (i : Nat) (s : Stamp), rows[i]? = some s → ∃ c, col[i]? = some c ∧
        (c = 3 ↔ date s ∈ hs) ∧ (c = 2 ↔ date s ∉ hs ∧ date s ∈ lw) ∧ (c = 1 ↔ date s ∉ hs ∧ date s ∉ lw ∧ date s ∈ br) ∧
        (c = 0 ↔ date s ∉ hs ∧ date s ∉ lw ∧ date s ∉ br) := by
  unfold addHolidays at h
  split at h
  · rename_i a b ha hb
    simp only [Except.ok.injEq] at h
    subst h
    generalize hh : api.holidays (rows.map (fun s => year (date s))).dedup = hols
    generalize hbl : api.spot (a.wall - 2 * 86400) (b.wall + 2 * 86400) hols = bl
    refine ⟨hols, bl.1, bl.2, by simp [setWhere], rfl, ⟨a, b, ha, hb, hbl⟩, ?_⟩
    intro i s hs
    refine ⟨_, setWhere_get _ _ _ _ i s _ hs (setWhere_get _ _ _ _ i s _ hs (setWhere_get _ _ _ _ i s 0 hs (by
      rw [List.getElem?_map, hs]; rfl))), ?_⟩
    by_cases h1 : date s ∈ hols
    · simp [h1]
    · by_cases h2 : date s ∈ bl.2
      · simp [h1, h2]
      · by_cases h3 : date s ∈ bl.1
        · simp [h1, h2, h3]
        · simp [h1, h2, h3]
  · cases h

/-- C31 (same date, same label). -/
theorem C31_same_date_same_label (api : Api) (year : Int → Int) (rows : List Stamp) (col : List Nat)
    (h : addHolidays api year rows = .ok col) (i j : Nat) (s r : Stamp) (hs : rows[i]? = some s) (hr : rows[j]? = some r)
    (hd : date s = date r) : col[i]? = col[j]? := by
  unfold addHolidays at h
  split at h
  · simp only [Except.ok.injEq] at h
    subst h
    rw [setWhere_get _ _ _ _ i s _ hs (setWhere_get _ _ _ _ i s _ hs (setWhere_get _ _ _ _ i s 0 hs (by rw [List.getElem?_map, hs]; rfl))),
      setWhere_get _ _ _ _ j r _ hr (setWhere_get _ _ _ _ j r _ hr (setWhere_get _ _ _ _ j r 0 hr (by rw [List.getElem?_map, hr]; rfl)))]
    simp only [hd]
  · cases h

/-- C31 (the holiday label is local): when the calendar gives each year's holidays independently of the other years
asked for, a row is labelled 3 iff its date is a holiday of its own year, in every frame: training and serving agree. -/
theorem C31_holiday_label_independent_of_frame (api : Api) (year : Int → Int) (H : Int → List Int)
    (hapi : ∀ ys d, d ∈ api.holidays ys ↔ ∃ y ∈ ys, d ∈ H y) (hH : ∀ y, ∀ d ∈ H y, year d = y)
    (rows : List Stamp) (col : List Nat) (h : addHolidays api year rows = .ok col) (i : Nat) (s : Stamp)
    (hs : rows[i]? = some s) : col[i]? = some 3 ↔ date s ∈ H (year (date s)) := by
  obtain ⟨hols, br, lw, -, he, -, hlab⟩ := C31_label api year rows col h
  obtain ⟨c, hc, h3, -⟩ := hlab i s hs
  rw [hc, Option.some.injEq, h3, he, hapi]
  constructor
  · rintro ⟨y, _, hd⟩
    rw [hH y _ hd]
    exact hd
  · intro hd
    refine ⟨_, ?_, hd⟩
    rw [List.mem_dedup]
    exact List.mem_map.2 ⟨s, List.mem_of_getElem? hs, rfl⟩

/-- Day 366 is the first day of year 1 and a holiday; days 0 to 365 are year 0. -/
def exYear (d : Int) : Int := if d < 366 then 0 else 1

/-- A day whose two neighbours within the range are a holiday and a free day is a bridge: here, day 365. -/
def exApi : Api :=
  { holidays := fun ys => if 1 ∈ ys then [366] else [], spot := fun _ _ hs => if 366 ∈ hs then ([365], []) else ([], []) }

/-- C31 (defect): the bridge label of a row depends on the other rows of the frame: holidays are only asked for the
years present in the frame, so the bridge day before New Year is found when the frame continues into the next year and
missed when it ends that day. -/
theorem C31_bridge_depends_on_frame :
    ∃ (api : Api) (year : Int → Int) (s r : Stamp) (c c' : List Nat), addHolidays api year [s] = .ok c ∧
      addHolidays api year [s, r] = .ok c' ∧ c[0]? = some 0 ∧ c'[0]? = some 1 ∧
      (∀ ys d, d ∈ api.holidays ys ↔ ∃ y ∈ ys, d ∈ (if y = 1 then [366] else [] : List Int)) := by
  refine ⟨exApi, exYear, ⟨365 * 86400, 0⟩, ⟨366 * 86400, 0⟩, _, _, rfl, rfl, by decide +kernel, by decide +kernel, ?_⟩
  intro ys d
  simp only [exApi]
  split
  · rename_i h
    constructor
    · intro hd; exact ⟨1, h, by simpa using hd⟩
    · rintro ⟨y, _, hd⟩
      split at hd
      · exact hd
      · cases hd
  · rename_i h
    constructor
    · intro hd; cases hd
    · rintro ⟨y, hy, hd⟩
      split at hd
      · rename_i he; subst he; exact absurd hy h
      · cases hd

/-! ### Non-vacuity -/

/-- A localised first frame, then a naive one. -/
example : ∃ t X, addTime (history none [⟨true, [⟨3661, 7200⟩], 1⟩]) ⟨false, [⟨86400 * 8 + 7325, 0⟩], 1⟩ = .ok (t, X) ∧
    X = [[(.hour, 2), (.dayofweek, 1), (.minuteofday, 122), (.utcOffset, 0)]] := by
  refine ⟨_, _, rfl, ?_⟩
  decide +kernel

example : ∃ t X, addTime none ⟨true, [⟨3661, 5400⟩], 0⟩ = .ok (t, X) ∧ t = some true ∧
    X = [[(.hour, 1), (.dayofweek, 0), (.minuteofday, 61), (.utcOffset, 3/2)]] := by
  refine ⟨_, _, rfl, ?_⟩
  decide +kernel

example : SameWallMinute ⟨60, 0⟩ ⟨604860 + 59, 0⟩ := ⟨-1, by decide⟩

/-- C30: two days and an hour after a Monday midnight it is Wednesday, in any week. -/
example (w : Int) : dayofweek ⟨w * (7 * 86400) + 2 * 86400 + 3600, 0⟩ = 2 :=
  (C30_day_of_week _ _).mpr ⟨by norm_num, by norm_num, w, by simp, by simp; omega⟩

end PyF.Calendar
