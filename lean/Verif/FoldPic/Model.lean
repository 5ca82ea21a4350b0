import Verif.Quantile.Model

/-!
Model of `Formatter.print_fold` (`pyforecaster/formatter.py` L478-492), which draws a fold of the cross-validation as text. The masks are lists of equal length. Not modelled:
what numpy makes of the quantile of no runs at all (`none` here), which happens if the mask of the skipped rows changes less than twice.
-/

namespace PyF.FoldPic
open PyF PyF.Quantile

/-- `buffers = ~(tr_idxs + te_idxs)`, L480. -/
def buffers (tr te : List Bool) : List Bool := List.zipWith (fun a b => !(a || b)) tr te

/-- `np.where(np.diff(buffers.astype(int)))[0]`, L482: the positions after which the mask changes. -/
def changes (m : List Bool) : List Nat := (List.range (m.length - 1)).filter (fun i => m[i]? != m[i + 1]?)

/-- `np.diff`, L482. -/
def diffs (l : List Nat) : List Nat := List.zipWith (fun a b => b - a) l l.tail

/-- `sampling_step`, L481-487. -/
def step (tr te : List Bool) : Option Nat :=
  if (buffers tr te).any id then
    if diffs (changes (buffers tr te)) = [] then none
    else some (⌊quantileVal ((diffs (changes (buffers tr te))).map (fun (n : ℕ) => (n : ℚ))) (1 / 10)⌋.toNat)
  else some (tr.length / 100)

/-- `l[::k]`, L489, for `k > 0`: the entries at 0, k, 2k, … as long as there are any. -/
def every {α : Type} (k : Nat) (l : List α) : List α := (List.range ((l.length + (k - 1)) / k)).filterMap (fun i => l[i * k]?)

/-- One row of the picture, L489-490: a row in both masks adds nothing. -/
def glyph (a b : Bool) : String :=
  if (a.toNat + 2 * b.toNat) = 0 then "x" else if (a.toNat + 2 * b.toNat) = 1 then "-" else if (a.toNat + 2 * b.toNat) = 2 then "|" else ""

/-- `print_fold` without the legend, L478-490, as the list of the glyphs; a step of zero raises. -/
def picture (tr te : List Bool) : Option (Except PyErr (List String)) :=
  (step tr te).map (fun k => if k = 0 then .error .valueError else .ok (List.zipWith glyph (every k tr) (every k te)))

end PyF.FoldPic
