import Verif.BinFlat.Model
import Verif.Binned.Props

namespace PyF.BinFlat
open PyF PyF.Names PyF.Transform PyF.Binned

/-- The next `s` rows from `t` on are all there and none of them is missing. -/
def Full (c : Col) (s t : Nat) : Prop := t + s ≤ c.length ∧ ∀ j < s, sample c ((t + j : Nat) : Int) ≠ none

instance (c : Col) (s t : Nat) : Decidable (Full c s t) := by unfold Full; infer_instance

/-- The rows that begin such a run. -/
def fullRows (c : Col) (s : Nat) : List Nat := (List.range c.length).filter (fun t => decide (Full c s t))

/-- The function of the samples `from - 1` to `to` steps before row `t`. -/
def aggAt (p : Nat × Nat) (f : List ℚ → Option ℚ) (c : Col) (t : Int) : Option ℚ :=
  (((List.range (p.1 - p.2)).map (fun (j : Nat) => t - p.2 - (p.1 - p.2 : Nat) + 1 + j)).mapM (sample c)).bind f

/-- All labels with their function, lag-major, then function, then bin. -/
def labels (fs : List Fn) (b : List Nat) (lags : Option (List Int)) : List (Label × Fn) :=
  (lagList lags).flatMap (fun l => fs.flatMap (fun f => (pairs b).map (fun p => ({ lag := l, bin := p, fn := f.name }, f))))

/-- What the column of bin `p` with a lag of `L` rows holds: only at rows that begin a full run; at the `i`-th of them the aggregation seen from the end of the
run begun by the one `L + (largest border - 1)` places earlier in the list of such rows. -/
def expected (b : List Nat) (p : Nat × Nat) (L : Int) (f : List ℚ → Option ℚ) (c : Col) (t : Nat) : Option ℚ :=
  if t ∈ fullRows c (binSteps b) then
    let i : Int := ((fullRows c (binSteps b)).idxOf t : Nat)
    if 0 ≤ i - L - ((b.headD 0 : Int) - 1) ∧ 0 ≤ i - L ∧ i - L < (fullRows c (binSteps b)).length then
      aggAt p f c ((((fullRows c (binSteps b)).getD (i - L - ((b.headD 0 : Int) - 1)).toNat 0 : Nat) : Int) + ((b.headD 0 : Int) - 1))
    else none
  else none

end PyF.BinFlat
