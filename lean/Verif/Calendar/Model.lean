import Verif.Common
import Mathlib.Data.Rat.Defs
import Mathlib.Data.List.Dedup
import Mathlib.Algebra.Order.Field.Rat
import Mathlib.Algebra.Order.Ring.Int

/-!
Model of `Formatter.add_time_features` and `Formatter.add_holidays`, `pyforecaster/formatter.py` L58-105. A row is
represented by its wall-clock time, in whole seconds since a Monday midnight, and its offset to UTC in seconds (read
only for localised indexes). `holidays_api.country_holidays` and `spot_holiday_bridges` are external and appear as
arbitrary functions.
-/

namespace PyF.Calendar

/-- One time stamp. -/
structure Stamp where
  wall : Int
  off : Int
  deriving DecidableEq

/-- A frame's index: whether it is localised, its rows, and the number of columns of the frame. -/
structure Frame where
  aware : Bool
  rows : List Stamp
  ncols : Nat

/-- `index.hour`. -/
def hour (s : Stamp) : Int := (s.wall / 3600) % 24
/-- `index.minute`. -/
def minute (s : Stamp) : Int := (s.wall / 60) % 60
/-- `index.dayofweek`, Monday = 0. -/
def dayofweek (s : Stamp) : Int := (s.wall / 86400) % 7
/-- `index.hour * 60 + index.minute`, L63. -/
def minuteofday (s : Stamp) : Int := hour s * 60 + minute s
/-- `utcoffset().total_seconds()/3600`, L68-71, L78. -/
def utcOffset (s : Stamp) : ℚ := (s.off : ℚ) / 3600

/-- The columns added, L64, L73, L84, L87. -/
inductive Feature
  | hour | dayofweek | minuteofday | utcOffset
  deriving DecidableEq

/-- Three features per row, L63, L86. -/
def three (s : Stamp) : List (Feature × ℚ) :=
  [(.hour, (hour s : ℚ)), (.dayofweek, (dayofweek s : ℚ)), (.minuteofday, (minuteofday s : ℚ))]

/-- `add_time_features(x)`, L58-91, from the attribute `timezone` (`none`: `None`) to the updated attribute and the
added columns, row by row. `IndexError` on an empty frame, L59. `ValueError` from `np.vstack` in L88 when a localised
frame has no column and the attribute is already set: only the branch of L67-69 handles that case. -/
def addTime (tz : Option Bool) (x : Frame) : Except PyErr (Option Bool × List (List (Feature × ℚ))) :=
  if x.rows = [] then .error .indexError
  else
    match tz with
    | none =>
      if x.aware then .ok (some true, x.rows.map (fun s => three s ++ [(.utcOffset, utcOffset s)]))
      else .ok (some false, x.rows.map three)
    | some true =>
      if x.aware then
        if x.ncols = 0 then .error .valueError
        else .ok (some true, x.rows.map (fun s => three s ++ [(.utcOffset, utcOffset s)]))
      else .ok (some true, x.rows.map (fun s => three s ++ [(.utcOffset, 0)]))
    | some false => .ok (some false, x.rows.map three)

/-- The attribute after a history of calls; a call that raises leaves it unchanged. -/
def history (tz : Option Bool) : List Frame → Option Bool
  | [] => tz
  | x :: xs =>
    match addTime tz x with
    | .ok (tz', _) => history tz' xs
    | .error _ => history tz xs

/-- The external functions: the holidays of a set of years, and the bridges and long weekends found between two time
stamps given the holidays. Dates are day numbers. -/
structure Api where
  holidays : List Int → List Int
  spot : Int → Int → List Int → List Int × List Int

/-- `index.date`. -/
def date (s : Stamp) : Int := s.wall / 86400

/-- `x.loc[np.isin(x.index.date, ds), 'holidays'] = v`. -/
def setWhere (rows : List Stamp) (ds : List Int) (v : Nat) (col : List Nat) : List Nat :=
  List.zipWith (fun s c => if date s ∈ ds then v else c) rows col

/-- `add_holidays(x)`, L93-105: the added column. `year` maps a date to its year. -/
def addHolidays (api : Api) (year : Int → Int) (rows : List Stamp) : Except PyErr (List Nat) :=
  match rows.head?, rows.getLast? with
  | some a, some b =>
    let hs := api.holidays (rows.map (fun s => year (date s))).dedup
    let bl := api.spot (a.wall - 2 * 86400) (b.wall + 2 * 86400) hs
    let c0 := rows.map (fun _ => 0)
    let c1 := setWhere rows bl.1 1 c0
    let c2 := setWhere rows bl.2 2 c1
    .ok (setWhere rows hs 3 c2)
  | _, _ => .error .indexError

end PyF.Calendar
