import Verif.Tune.Model
import Mathlib.Algebra.BigOperators.Intervals

namespace PyF.Tune

open PyF

variable {N σ : Type} [DecidableEq N]

/-- A value between two limits, in either order. -/
def InLim : Lim → Val → Prop
  | .scalar lo hi, .num q => min lo hi ≤ q ∧ q ≤ max lo hi ∧ (lo < hi → q < hi)
  | .vec l, .vec v => v.length = l.length ∧ ∀ (j : ℕ) (p : ℚ × ℚ), l[j]? = some p → ∃ q, v[j]? = some q ∧ min p.1 p.2 ≤ q ∧ q ≤ max p.1 p.2 ∧ (p.1 < p.2 → q < p.2)
  | _, _ => False

/-- Score of a trial on its own: `fit_sample` on the keywords as they were before the search. -/
def aloneScore (C : Cls N σ) (kw : Kw N) (x : Frame N) (t : List (N × Val)) (s : Score) : Prop := ∃ kw', fitSample C kw t x = .ok (some s, kw')

/-- Mean squared error of the forecasts `yhat` made at the rows `y[0], y[1], …` with `n` steps ahead: forecast `g` of row `i` against `y[i+1+g]`, over the rows for which all `n`
following observations exist. -/
def mse (yhat : List (List ℚ)) (y : List ℚ) (n : ℕ) : ℚ :=
  (∑ g ∈ Finset.range n, ∑ i ∈ Finset.range (y.length - n), ((yhat.getD i []).getD g 0 - y.getD (i + 1 + g) 0) ^ 2) / ((n * (y.length - n) : ℕ) : ℚ)

/-- Two frames with the same columns that agree in all of them except those in `bad`. -/
def AgreeOff (x x' : Frame N) (bad : List N) : Prop :=
  x'.cols = x.cols ∧ List.Forall₂ (fun r r' : List ℚ => ∀ c ∈ x.cols, c ∉ bad → r'.getD (x.cols.idxOf c) 0 = r.getD (x.cols.idxOf c) 0) x.rows x'.rows

/-- The keywords with other values in the dictionary of parameters. -/
def MKw.withPars (kw : MKw N) (pars : N → Option Val) : MKw N := { kw with base := { kw.base with pars := pars } }

end PyF.Tune
