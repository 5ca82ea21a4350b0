import Verif.Hybrid.Model
import Mathlib.Data.List.Forall2
import Mathlib.Data.List.OfFn
import Mathlib.Tactic.Linarith

namespace PyF.Hybrid

open PyF

theorem mapM_ok {α β : Type} (f : α → Except PyErr β) (g : α → β) (l : List α) (h : ∀ a ∈ l, f a = .ok (g a)) : l.mapM f = .ok (l.map g) := by
  induction l with
  | nil => rfl
  | cons a l ih =>
    rw [List.mapM_cons, h a (by simp), ih (fun b hb => h b (by simp [hb]))]
    rfl

theorem mapM_cons_ok {α β : Type} (f : α → Except PyErr β) (a : α) (l : List α) (r : List β) (h : (a :: l).mapM f = .ok r) :
    ∃ b bs, f a = .ok b ∧ l.mapM f = .ok bs ∧ r = b :: bs := by
  rw [List.mapM_cons] at h
  cases hfa : f a with
  | error e => rw [hfa] at h; cases h
  | ok b =>
    rw [hfa] at h
    cases hl : l.mapM f with
    | error e => rw [hl] at h; cases h
    | ok bs => rw [hl] at h; cases h; exact ⟨b, bs, rfl, rfl, rfl⟩

/-- Result of `mapM`: same length, elementwise results. -/
theorem mapM_inv {α β : Type} (f : α → Except PyErr β) (l : List α) (r : List β) (h : l.mapM f = .ok r) :
    r.length = l.length ∧ ∀ (i : ℕ) (a : α), l[i]? = some a → ∃ b, f a = .ok b ∧ r[i]? = some b := by
  induction l generalizing r with
  | nil => cases h; exact ⟨rfl, fun i a hi => by simp at hi⟩
  | cons a l ih =>
    obtain ⟨b, bs, h1, h2, rfl⟩ := mapM_cons_ok f a l r h
    obtain ⟨hl, he⟩ := ih bs h2
    refine ⟨by simp [hl], ?_⟩
    intro i c hi
    cases i with
    | zero => simp only [List.getElem?_cons_zero, Option.some.injEq] at hi; subst hi; exact ⟨b, h1, by simp⟩
    | succ i => rw [List.getElem?_cons_succ] at hi ⊢; exact he i c hi

theorem mapM_error {α β : Type} (f : α → Except PyErr β) (l : List α) (a : α) (ha : a ∈ l) (hf : ∃ e, f a = .error e) : ∃ e, l.mapM f = .error e := by
  cases h : l.mapM f with
  | error e => exact ⟨e, rfl⟩
  | ok r =>
    obtain ⟨i, hi⟩ := List.mem_iff_getElem?.1 ha
    obtain ⟨b, hb, _⟩ := (mapM_inv f l r h).2 i a hi
    obtain ⟨e, he⟩ := hf
    rw [he] at hb; cases hb

theorem fitReg_ok (E : Env) (s : List (Row × ℚ)) (m : Reg) (h : fitReg E s = .ok m) : m.f = E.train s ∧ ∃ p ∈ s, m.width = p.1.length := by
  unfold fitReg at h
  cases s with
  | nil => cases h
  | cons p s => simp only at h; cases h; exact ⟨rfl, p, by simp, rfl⟩

theorem fitReg_ne (E : Env) (s : List (Row × ℚ)) (h : s ≠ []) : ∃ m, fitReg E s = .ok m := by
  unfold fitReg
  cases s with
  | nil => exact absurd rfl h
  | cons p s => exact ⟨_, rfl⟩

/-- Targets are determined by features. -/
def Consistent (s : List (Row × ℚ)) : Prop := ∀ p ∈ s, ∀ q ∈ s, p.1 = q.1 → p.2 = q.2

/-- A learner that reproduces its training set whenever that is possible. -/
def Interpolates (E : Env) : Prop := ∀ s, Consistent s → ∀ p ∈ s, E.train s p.1 = p.2

/-- All rows have the same width. -/
def SameWidth (s : List Row) : Prop := ∀ a ∈ s, ∀ b ∈ s, a.length = b.length

theorem predReg_exact (E : Env) (hE : Interpolates E) (s : List (Row × ℚ)) (hc : Consistent s) (hw : SameWidth (s.map Prod.fst)) (m : Reg) (hm : fitReg E s = .ok m)
    (p : Row × ℚ) (hp : p ∈ s) : predReg m p.1 = .ok p.2 := by
  obtain ⟨h1, q, hq, h2⟩ := fitReg_ok E s m hm
  unfold predReg
  rw [h2, if_pos (hw p.1 (List.mem_map_of_mem hp) q.1 (List.mem_map_of_mem hq)), h1, hE s hc p hp]

theorem predReg_width (E : Env) (s : List (Row × ℚ)) (hw : SameWidth (s.map Prod.fst)) (m : Reg) (hm : fitReg E s = .ok m) (r : Row) :
    (∃ q ∈ s, r.length = q.1.length) → predReg m r = .ok (E.train s r) := by
  rintro ⟨q, hq, h⟩
  obtain ⟨h1, q', hq', h2⟩ := fitReg_ok E s m hm
  unfold predReg
  rw [h2, h, if_pos (hw q.1 (List.mem_map_of_mem hq) q'.1 (List.mem_map_of_mem hq')), h1]

theorem getD_of_getElem? {α : Type} (l : List α) (i : ℕ) (d a : α) (h : l[i]? = some a) : l.getD i d = a := by
  rw [List.getD_eq_getElem?_getD, h]; rfl

theorem mem_longSet (n nm : ℕ) (x y : List Row) (draws : List (List ℕ)) (p : Row × ℚ) :
    p ∈ longSet n nm x y draws ↔ ∃ i < nm, ∃ t ∈ draws.getD i [], p = (x.getD t [] ++ [(i : ℚ)], (y.getD t []).getD (n + i) 0) := by
  unfold longSet
  rw [List.mem_flatMap]
  constructor
  · rintro ⟨i, hi, hp⟩
    obtain ⟨t, ht, rfl⟩ := List.mem_map.1 hp
    exact ⟨i, List.mem_range.1 hi, t, ht, rfl⟩
  · rintro ⟨i, hi, t, ht, rfl⟩
    exact ⟨i, List.mem_range.2 hi, List.mem_map.2 ⟨t, ht, rfl⟩⟩

theorem mem_singleSet (E : Env) (x y : List Row) (hxy : x.length = y.length) (i : ℕ) (p : Row × ℚ) :
    p ∈ singleSet E x y i ↔ ∃ t < x.length, p = (E.prune i (x.getD t []), (y.getD t []).getD i 0) := by
  unfold singleSet col
  rw [List.mem_iff_getElem?]
  constructor
  · rintro ⟨t, ht⟩
    obtain ⟨h1, h2⟩ := List.getElem?_zip_eq_some.1 ht
    rw [List.getElem?_map, Option.map_eq_some_iff] at h1 h2
    obtain ⟨a, ha, h1⟩ := h1
    obtain ⟨b, hb, h2⟩ := h2
    have htl : t < x.length := (List.getElem?_eq_some_iff.1 ha).1
    refine ⟨t, htl, ?_⟩
    rw [getD_of_getElem? x t [] a ha, getD_of_getElem? y t [] b hb, h1, h2]
  · rintro ⟨t, ht, rfl⟩
    refine ⟨t, List.getElem?_zip_eq_some.2 ⟨?_, ?_⟩⟩
    · rw [List.getElem?_map, List.getElem?_eq_getElem ht, Option.map_some]
      simp [List.getD_eq_getElem?_getD, ht]
    · rw [List.getElem?_map, List.getElem?_eq_getElem (by omega), Option.map_some]
      simp [List.getD_eq_getElem?_getD, hxy ▸ ht]

end PyF.Hybrid
