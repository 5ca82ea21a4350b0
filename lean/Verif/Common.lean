/-!
Shared vocabulary: Python exceptions as values, and positional row access.
-/

namespace PyF

/-- The Python exception classes the modelled code can raise (or let numpy/pandas raise). -/
inductive PyErr
  | typeError
  | valueError
  | keyError
  | indexError
  | assertionError
  | notImplementedError
  | zeroDivisionError
  | attributeError
  | runtimeError
  | unboundLocalError
  deriving DecidableEq, Repr

/-- `a.iloc[pos]` / `a[pos]` with a list of non-negative positions: the rows at those positions, in
that order; `IndexError` when a position is out of bounds. (pandas/numpy fancy indexing.) -/
def takeRows {α : Type _} (a : List α) : List Nat → Except PyErr (List α)
  | [] => .ok []
  | p :: ps =>
    match a[p]? with
    | none => .error .indexError
    | some v =>
      match takeRows a ps with
      | .error e => .error e
      | .ok vs => .ok (v :: vs)

theorem takeRows_ok_iff {α : Type _} (a : List α) (ps : List Nat) (r : List α) :
    takeRows a ps = .ok r ↔ ps.map (fun p => a[p]?) = r.map some := by
  induction ps generalizing r with
  | nil => cases r <;> simp [takeRows]
  | cons p ps ih =>
    cases hp : a[p]? with
    | none => cases r <;> simp [takeRows, hp]
    | some v =>
      cases ht : takeRows a ps with
      | error e =>
        cases r with
        | nil => simp [takeRows, hp, ht]
        | cons w r' =>
          simp only [takeRows, hp, ht, List.map_cons, List.cons.injEq]
          constructor
          · intro h; cases h
          · intro h
            have := (ih r').2 h.2
            rw [ht] at this; cases this
      | ok vs =>
        cases r with
        | nil => simp [takeRows, hp, ht]
        | cons w r' =>
          have h1 := ih r'
          rw [ht] at h1
          simp only [takeRows, hp, ht, List.map_cons, List.cons.injEq, Except.ok.injEq,
            Option.some.injEq] at h1 ⊢
          rw [h1]

theorem takeRows_ok_of_lt {α : Type _} (a : List α) (ps : List Nat) (h : ∀ p ∈ ps, p < a.length) :
    ∃ r, takeRows a ps = .ok r ∧ r.length = ps.length := by
  induction ps with
  | nil => exact ⟨[], rfl, rfl⟩
  | cons p ps ih =>
    obtain ⟨r, hr, hl⟩ := ih (fun q hq => h q (List.mem_cons_of_mem _ hq))
    have hp : p < a.length := h p List.mem_cons_self
    refine ⟨a[p] :: r, ?_, by simp [hl]⟩
    simp [takeRows, List.getElem?_eq_getElem hp, hr]

end PyF
