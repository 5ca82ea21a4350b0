import Mathlib.Data.List.Basic

/-!
Specification vocabulary for row selection: what it means for a list of rows to be the rows of a
table at given positions, for positions to be in time order, and for a reordering to be stable.
None of these mention the model of the code.
-/

namespace PyF.Subsample.Spec

/-- `rows` is the list of the rows of `table` found at positions `pos`, in that order. In particular
every position exists. -/
def RowsAt {α : Type} (pos : List Nat) (table rows : List α) : Prop :=
  pos.map (fun p => table[p]?) = rows.map some

/-- Positions are in non-decreasing order of their time stamp. -/
def InTimeOrder {ι : Type} [LE ι] (idx : List ι) (pos : List Nat) : Prop :=
  pos.Pairwise (fun a b => ∀ va vb, idx[a]? = some va → idx[b]? = some vb → va ≤ vb)

/-- `after` lists the same positions as `before`, and positions with the same time stamp have kept
their relative order. -/
def StableReorder {ι : Type} (idx : List ι) (before after : List Nat) : Prop :=
  after.Perm before ∧
    ∀ a b v, [a, b].Sublist before → idx[a]? = some v → idx[b]? = some v → [a, b].Sublist after

/-- How many of the selected positions carry hour `h`. -/
def keptAtHour {ι : Type} (hour : ι → Nat) (idx : List ι) (pos : List Nat) (h : Nat) : Nat :=
  pos.countP (fun p => (idx[p]?).map hour == some h)

/-- How many rows carry hour `h` in the whole frame. -/
def availableAtHour {ι : Type} (hour : ι → Nat) (idx : List ι) (h : Nat) : Nat :=
  idx.countP (fun i => hour i == h)

end PyF.Subsample.Spec
