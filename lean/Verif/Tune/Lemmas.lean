import Verif.Tune.Model
import Verif.Hankel.Props
import Verif.Hybrid.Lemmas
import Mathlib.Algebra.BigOperators.Group.List.Lemmas
import Mathlib.Algebra.BigOperators.Intervals
import Mathlib.Tactic.Ring
import Mathlib.Tactic.Linarith

namespace PyF.Tune

open PyF

variable {N σ : Type} [DecidableEq N]

/-- Value of `d` under `k` after writing the pairs of `l`: the last pair with that key, else the old value. -/
theorem foldl_set (l : List (N × Val)) (d : N → Option Val) (k : N) :
    (k ∉ l.map Prod.fst → (l.foldl (fun d p k => if k = p.1 then some p.2 else d k) d) k = d k) ∧
    (∀ v, (k, v) ∈ l → (l.map Prod.fst).Nodup → (l.foldl (fun d p k => if k = p.1 then some p.2 else d k) d) k = some v) := by
  induction l generalizing d with
  | nil => exact ⟨fun _ => rfl, fun v hv => absurd hv (by simp)⟩
  | cons p l ih =>
    obtain ⟨h1, h2⟩ := ih (fun k => if k = p.1 then some p.2 else d k)
    refine ⟨fun hk => ?_, fun v hv hnd => ?_⟩
    · rw [List.map_cons, List.mem_cons, not_or] at hk
      rw [List.foldl_cons, h1 hk.2, if_neg hk.1]
    · rw [List.map_cons, List.nodup_cons] at hnd
      rw [List.foldl_cons]
      rcases List.mem_cons.1 hv with rfl | hv
      · rw [h1 hnd.1]; simp
      · exact h2 v hv hnd.2

theorem update_pars_ne (kw : Kw N) (t : List (N × Val)) (k : N) (hk : k ∉ t.map Prod.fst) : (kw.update t).pars k = kw.pars k := (foldl_set t kw.pars k).1 hk

theorem update_pars_eq (kw : Kw N) (t : List (N × Val)) (k : N) (v : Val) (hk : (k, v) ∈ t) (hn : (t.map Prod.fst).Nodup) : (kw.update t).pars k = some v :=
  (foldl_set t kw.pars k).2 v hk hn

omit [DecidableEq N] in
theorem mk_ok (C : Cls N σ) (kw : Kw N) (o : Obj N σ) (h : mk C kw = .ok o) :
    ∃ t, kw.targetName.or C.defaultTarget = some t ∧ C.check kw = .ok () ∧ o = ⟨normKw t kw, normKw t kw, C.state0 (normKw t kw)⟩ := by
  unfold mk at h
  cases ht : kw.targetName.or C.defaultTarget with
  | none => rw [ht] at h; cases h
  | some t =>
    rw [ht] at h
    cases hc : C.check kw with
    | error e => simp only [hc] at h; cases h
    | ok u => simp only [hc] at h; cases h; exact ⟨t, rfl, rfl, rfl⟩

/-! ### argmin -/

theorem sle_refl_of (a b : Score) (h : sle a b = true) : a ≠ none ∧ b ≠ none := by
  cases a <;> cases b <;> simp_all [sle]

theorem exists_min (s : List Score) (hne : s ≠ []) (hn : none ∉ s) : ∃ v ∈ s, ∀ w ∈ s, sle v w = true := by
  induction s with
  | nil => exact absurd rfl hne
  | cons a s ih =>
    rw [List.mem_cons, not_or] at hn
    cases a with
    | none => exact absurd rfl hn.1
    | some a =>
      by_cases hs : s = []
      · subst hs; exact ⟨some a, by simp, fun w hw => by simp only [List.mem_singleton] at hw; subst hw; simp [sle]⟩
      · obtain ⟨v, hv, hmin⟩ := ih hs hn.2
        cases v with
        | none => exact absurd hv hn.2
        | some v =>
          by_cases hav : a ≤ v
          · refine ⟨some a, by simp, fun w hw => ?_⟩
            rcases List.mem_cons.1 hw with rfl | hw
            · simp [sle]
            · have := hmin w hw
              cases w with
              | none => simp [sle] at this
              | some w => simp only [sle, decide_eq_true_eq] at this ⊢; exact le_trans hav this
          · refine ⟨some v, by simp [hv], fun w hw => ?_⟩
            rcases List.mem_cons.1 hw with rfl | hw
            · simp only [sle, decide_eq_true_eq]; exact le_of_not_ge hav
            · exact hmin w hw

theorem argmin_nan (s : List Score) (b : ℕ) (h : argmin s = .ok b) (hn : none ∈ s) : s[b]? = some none ∧ ∀ (j : ℕ) (v : Score), j < b → s[j]? = some v → v ≠ none := by
  unfold argmin at h
  rw [if_neg (List.ne_nil_of_mem hn), if_pos hn] at h
  cases h
  have hlt := List.idxOf_lt_length_of_mem hn
  refine ⟨by rw [List.getElem?_eq_getElem hlt, List.getElem_idxOf hlt], fun j v hj hv he => ?_⟩
  subst he
  obtain ⟨hj2, hv2⟩ := List.getElem?_eq_some_iff.1 hv
  have : (none : Score) ∈ s.take (s.idxOf none) := by
    rw [List.mem_iff_getElem]
    exact ⟨j, by simp [hj, hj2], by rw [List.getElem_take]; exact hv2⟩
  exact absurd (List.mem_take_iff_idxOf_lt (by exact hn) |>.1 this) (lt_irrefl _)

theorem argmin_min (s : List Score) (b : ℕ) (h : argmin s = .ok b) (hn : none ∉ s) :
    ∃ q, s[b]? = some (some q) ∧ ∀ (j : ℕ) (v : ℚ), s[j]? = some (some v) → q ≤ v ∧ (j < b → q < v) := by
  unfold argmin at h
  split at h
  · cases h
  · next hne =>
    cases h
    obtain ⟨w, hw, hmin⟩ := exists_min s hne hn
    have hlt : s.findIdx (fun v => s.all (fun w => sle v w)) < s.length := List.findIdx_lt_length_of_exists ⟨w, hw, by simpa using hmin⟩
    have hp := List.findIdx_getElem (w := hlt)
    have hmem : s[s.findIdx (fun v => s.all (fun w => sle v w))] ∈ s := List.getElem_mem hlt
    cases hq : s[s.findIdx (fun v => s.all (fun w => sle v w))] with
    | none => rw [hq] at hmem; exact absurd hmem hn
    | some q =>
      rw [hq] at hp
      refine ⟨q, by rw [List.getElem?_eq_getElem hlt, hq], fun j v hv => ?_⟩
      have hle : ∀ x ∈ s, sle (some q) x = true := by simpa using hp
      obtain ⟨hj2, hv2⟩ := List.getElem?_eq_some_iff.1 hv
      have h1 : q ≤ v := by have := hle (some v) (hv2 ▸ List.getElem_mem hj2); simpa [sle] using this
      refine ⟨h1, fun hj => lt_of_le_of_ne h1 (fun he => ?_)⟩
      have := List.not_of_lt_findIdx hj
      subst he
      rw [hv2] at this
      rw [hp] at this; cases this

theorem argmin_exists (s : List Score) : (∃ b, argmin s = .ok b) ↔ s ≠ [] := by
  unfold argmin
  by_cases h : s = []
  · simp [h]
  · rw [if_neg h]
    split <;> simp [h]

end PyF.Tune
