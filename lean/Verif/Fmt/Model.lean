import Verif.Transform.Model

/-!
Model of `Formatter._transform` (`pyforecaster/formatter.py` L212-268) up to the calendar features: feature
transformers, target transformers, removal of rows with NaN. Target normalisers are in `Verif.Normalize`, calendar
features in `Verif.Calendar`. The frame's index labels are assumed pairwise distinct (pandas' boolean alignment of
L257 is modelled for that case only).
-/

namespace PyF.Fmt
open PyF.Names PyF.Transform

variable {I : Type} [DecidableEq I]

/-- A frame with index labels. -/
structure IFrame (I : Type) where
  index : List I
  cols : List (Str × Col)

/-- The attributes of `Formatter` used here. -/
structure Formatter where
  transformers : List Transformer
  targets : List Transformer
  augment : Bool

/-- `df.loc[mask]`: keep the entries at positions where the mask is true. -/
def keep {α : Type} : List Bool → List α → List α
  | true :: m, a :: l => a :: keep m l
  | false :: m, _ :: l => keep m l
  | _, _ => []

/-- `df.loc[mask]` on a frame. -/
def IFrame.keepRows (m : List Bool) (x : IFrame I) : IFrame I :=
  { index := keep m x.index, cols := x.cols.map (fun p => (p.1, keep m p.2)) }

/-- `~np.any(cols.isna(), axis=1)` over `n` rows. -/
def notNa (n : Nat) (cols : List (Str × Col)) : List Bool :=
  (List.range n).map (fun t => cols.all (fun p => ((p.2[t]?).join).isSome))

/-- `a & b` of two boolean Series: aligned on the index of the longer one `idx2`, absent labels count as False. -/
def alignAnd (idx1 : List I) (m1 : List Bool) (idx2 : List I) (m2 : List Bool) : List Bool :=
  List.zipWith (fun i b => ((idx1.zip m1).lookup i).getD false && b) idx2 m2

/-- `transformed_columns`, L239: the columns that are not in the original frame. -/
def newCols (F : Frame) (cols : List (Str × Col)) : List (Str × Col) :=
  cols.filter (fun p => !(F.cols.any (fun q => q.1 = p.1)))

/-- The target frame, L241-243. -/
def targetCols : List Transformer → Frame → Except PyErr (List Transformer × List (Str × Col))
  | [], _ => .ok ([], [])
  | tr :: trs, F =>
    match transform tr false F with
    | .error e => .error e
    | .ok (tr', out, _) =>
      match targetCols trs F with
      | .error e => .error e
      | .ok (trs', cols) => .ok (tr' :: trs', out.cols ++ cols)

/-- `_transform(x, return_target)`, L224-262, without normalisers: the formatter, `x`, and the target. -/
def transformX (fm : Formatter) (idx : List I) (F : Frame) (returnTarget : Bool) :
    Except PyErr (Formatter × IFrame I × IFrame I) :=
  match applyAll fm.transformers F with
  | .error e => .error e
  | .ok (trs, X) =>
    let tc := newCols F X.cols
    let sel := fun (m : List Bool) =>
      (if fm.augment then (IFrame.mk idx X.cols) else (IFrame.mk idx tc)).keepRows m
    if returnTarget then
      match targetCols fm.targets X with
      | .error e => .error e
      | .ok (tts, T) =>
        let n := idx.length
        -- L256
        let m := List.zipWith (· && ·) (notNa n tc) (notNa n T)
        let idxX := keep m idx
        let tcX := tc.map (fun p => (p.1, keep m p.2))
        -- L257: the mask over the filtered x, aligned with the mask over the full target
        let m' := alignAnd idxX (notNa idxX.length tcX) idx (notNa n T)
        .ok ({ fm with transformers := trs, targets := tts }, sel m, (IFrame.mk idx T).keepRows m')
    else
      -- L259
      .ok ({ fm with transformers := trs }, sel (notNa idx.length tc), { index := idx, cols := [] })

end PyF.Fmt
