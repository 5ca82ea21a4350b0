import Verif.Common
import Mathlib.Data.Nat.Digits.Defs

/-!
Model of the column names built by `Transformer.transform` and of `hr_timedelta`,
`pyforecaster/formatter.py` L759-760, L799-801, L866-894. Strings are lists of characters.
-/

namespace PyF.Names

abbrev Str := List Char

/-- The decimal digit characters of a positive number, most significant first (`'{}'.format(n)`); empty for 0. -/
def digits (n : Nat) : Str := ((Nat.digits 10 n).reverse).map Nat.digitChar

/-- `'{:0wd}'.format(n)` for `n ≥ 0` and `w ≥ 1`: zero padded on the left to width `w`. -/
def pad (w n : Nat) : Str := List.replicate (w - (digits n).length) '0' ++ digits n

/-- The number after `_lag_`, L800: `{:03d}` for non-negative lags, `{:04d}` for negative ones, where the sign
counts for the width. -/
def lagStr (l : Int) : Str := if 0 ≤ l then pad 3 l.toNat else '-' :: pad 3 (-l).toNat

/-- `'{}_lag_{}'.format(name, lag)`, L800. -/
def lagName (name : Str) (l : Int) : Str := name ++ ("_lag_".toList ++ lagStr l)

/-- `'{}_{}_{}'.format(name, hr_agg_freq, fun)`, L760. -/
def aggName (name agg fn : Str) : Str := name ++ ('_' :: agg ++ ('_' :: fn))

/-- `'{}u'.format(n) * int(n > 0)`. -/
def part (n : Nat) (u : Char) : Str := if n > 0 then pad 1 n ++ [u] else []

/-- `hr_timedelta`, L866-894, on a whole number of seconds. -/
def hrTimedelta (zeroPadding : Bool) (t : Int) : Str :=
  let a := t.natAbs
  let s := a % 60
  let days := a / (3600 * 24)
  let hours := (a - days * 3600 * 24) / 3600
  let minutes := (a - days * 3600 * 24 - hours * 3600) / 60
  let time :=
    if zeroPadding then
      (pad 2 days ++ ['d']) ++ (pad 2 hours ++ ['h']) ++ (pad 2 minutes ++ ['m'])
        ++ (if s > 0 then pad 2 s ++ ['s'] else [])
    else part days 'd' ++ part hours 'h' ++ part minutes 'm' ++ part s 's'
  if t < 0 then '-' :: time else time

end PyF.Names
