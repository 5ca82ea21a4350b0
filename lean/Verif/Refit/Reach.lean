import Verif.Refit.Props

/-! C15: what `predict` of the hybrids can raise. -/

namespace PyF.Refit
open PyF

variable {D M G X V : Type}

theorem takeRows_error_ne {α : Type} (a : List α) (ps : List Nat) (e : PyErr) (h : takeRows a ps = .error e) : e ≠ .attributeError := by
  induction ps with
  | nil => cases h
  | cons p ps ih =>
    unfold takeRows at h
    cases hp : a[p]? with
    | none => rw [hp] at h; obtain rfl := Except.error.inj h; simp
    | some v =>
      rw [hp] at h
      simp only at h
      cases ht : takeRows a ps with
      | error e' => rw [ht] at h; obtain rfl := Except.error.inj h; exact ih ht
      | ok vs => rw [ht] at h; cases h

/-- A state with multi-step targets has a multi-step model. -/
def HasMulti (s : HState M G) : Prop := ∀ k, s.nMulti = some k → 0 < k → s.multi ≠ none

theorem hybFit_hasMulti (o : Oracle D M G X V) (xVal : D → X) (nSingle : Nat) (parallel : Bool) (s : HState M G) (h : HasMulti s) (d : D) :
    HasMulti (hybFit o xVal nSingle parallel s d).1 := by
  unfold hybFit
  simp only
  split
  · split
    · exact h
    · exact h
  · have : ∀ ms : List M, HasMulti (HState.mk ms (if o.width d - nSingle > 0 then some (o.trainMulti d) else s.multi)
        (some (o.width d - nSingle)) (some (o.width d))) := by
      intro ms k hk hpos
      simp only [Option.some.injEq] at hk
      simp only
      rw [if_pos (by omega)]
      simp
    split
    · exact this _
    · exact this _

/-- C15 (hybrid, exceptions): after any history of `fit` calls, failed ones included, `predict` never misses its multi-step
model (`AttributeError`). -/
theorem C15_hybrid_multi_present (o : Oracle D M G X V) (xVal : D → X) (nSingle : Nat) (parallel : Bool) (ds : List D) (x : X) :
    hybPredict o nSingle (hybHistory o xVal nSingle parallel HState.fresh ds) x ≠ .error .attributeError := by
  have key : ∀ (ds : List D) (s : HState M G), HasMulti s → HasMulti (hybHistory o xVal nSingle parallel s ds) := by
    intro ds
    induction ds with
    | nil => intro s h; exact h
    | cons d ds ih => intro s h; exact ih _ (hybFit_hasMulti o xVal nSingle parallel s h d)
  have h := key ds HState.fresh (by intro k hk; cases hk)
  generalize hybHistory o xVal nSingle parallel HState.fresh ds = s at h
  unfold hybPredict
  have hs : ∀ e, singles o s.models nSingle x = .error e → e ≠ .attributeError := by
    intro e he
    unfold singles at he
    cases ht : takeRows s.models (List.range nSingle) with
    | ok ms => rw [ht] at he; cases he
    | error e' =>
      rw [ht] at he
      obtain rfl := Except.error.inj he
      exact takeRows_error_ne _ _ _ ht
  have hm : ∀ (cols : List V) (t : Option Nat), mkFrame cols t ≠ .error .attributeError := by
    intro cols t
    unfold mkFrame
    repeat' split
    all_goals simp
  cases h1 : singles o s.models nSingle x with
  | error e => simpa using hs e h1
  | ok cols =>
    simp only
    cases h2 : s.nMulti with
    | none => simp
    | some k =>
      simp only
      split
      · next hk =>
        cases h3 : s.multi with
        | none => exact absurd h3 (h k h2 hk)
        | some g => exact hm _ _
      · exact hm _ _

/-- Two columns, one own model: fitted twice, the forecast of both columns is there. -/
example : (hybPredict (D := Nat) (M := Nat × Nat) (G := Nat) (X := Unit) (V := Nat) ⟨fun _ => 2, fun d i => (d, i), fun d => d, fun m _ => 10 * m.1 + m.2, fun g j _ => 100 * g + j⟩ 1
    (hybHistory ⟨fun _ => 2, fun d i => (d, i), fun d => d, fun m _ => 10 * m.1 + m.2, fun g j _ => 100 * g + j⟩ (fun _ => ()) 1 true HState.fresh [3, 4]) ()).toOption
      = some [40, 400] := by decide +kernel

end PyF.Refit
