import Verif.Hyper.Model
import Verif.Hyper.Spec
import Verif.Params.Props
import Mathlib.Tactic.Linarith
import Mathlib.Data.List.Induction

namespace PyF.Hyper
open PyF PyF.Params

variable {N V : Type} [DecidableEq N]

theorem setParams_none (a : Attrs N V) (kw : List (N × V)) (n : N) (h : a n = none) : Params.setParams a kw n = none := by
  have := setParams_isSome a kw n
  rw [h] at this
  simpa using this

/-- The run of a search as a relation: the objects and the trials. -/
theorem study_run (c : Cls N V) (full : Bool) (folds : ℕ) (score : Obj N V → ℕ → Option ℚ) (draw : ℕ → ℕ) (sampler : List (Trial N V) → List (N × V))
    (n : ℕ) (ob : Obj N V) (h : List (Trial N V)) (ob' : Obj N V) (l : List (Trial N V)) (hs : study c full folds score draw sampler n ob h = .ok (ob', l)) :
    ∃ new : List (Trial N V), l = h ++ new ∧ new.length = n ∧ ob' = new.foldl (fun o t => o.setParams t.params) ob ∧
      ∀ (i : ℕ) t, new[i]? = some t → ∃ o₁, objective c full folds score (draw (h.length + i)) ((new.take i).foldl (fun o t => o.setParams t.params) ob) t.params = .ok (o₁, t) ∧
        t.params = sampler (h ++ new.take i) := by
  induction n generalizing ob h with
  | zero =>
    simp only [study, Except.ok.injEq, Prod.mk.injEq] at hs
    refine ⟨[], by simp [hs.2], rfl, by simp [hs.1], ?_⟩
    intro i t ht; simp at ht
  | succ n ih =>
    simp only [study] at hs
    cases ho : objective c full folds score (draw h.length) ob (sampler h) with
    | error e => rw [ho] at hs; cases hs
    | ok r =>
      obtain ⟨ob₁, tr⟩ := r
      rw [ho] at hs
      have hkey : tr.params = sampler h ∧ ob₁ = ob.setParams (sampler h) := by
        unfold objective at ho
        unfold applyTrial at ho
        split at ho
        · cases ho
        · rename_i o₁ heq
          split at heq
          · cases heq
            split at ho
            · split at ho
              · cases ho
              · cases ho; exact ⟨rfl, rfl⟩
            · cases ho; exact ⟨rfl, rfl⟩
          · cases heq
      obtain ⟨new, h1, h2, h3, h4⟩ := ih ob₁ (h ++ [tr]) hs
      refine ⟨tr :: new, by simp [h1], by simp [h2], ?_, ?_⟩
      · rw [h3, List.foldl_cons, hkey.1, hkey.2]
      · intro i t ht
        cases i with
        | zero =>
          simp only [List.getElem?_cons_zero, Option.some.injEq] at ht
          subst ht
          refine ⟨ob₁, ?_, ?_⟩
          · simp only [List.take_zero, List.foldl_nil, Nat.add_zero]; rw [hkey.1]; exact ho
          · simp [hkey.1]
        | succ i =>
          simp only [List.getElem?_cons_succ] at ht
          obtain ⟨o₁, h5, h6⟩ := h4 i t ht
          refine ⟨o₁, ?_, ?_⟩
          · rw [List.take_succ_cons, List.foldl_cons, hkey.1, ← hkey.2]
            have hidx : (h ++ [tr]).length + i = h.length + (i + 1) := by simp; omega
            rw [← hidx]; exact h5
          · rw [h6]; simp

theorem construct_inv {c : Cls N V} {kw : List (N × V)} {ob : Obj N V} (h : construct c kw = .ok ob) :
    ob.attrs = (fun n => if c.stored n then some (ob.received n) else none) ∧ ob.frozen = ob.received := by
  unfold construct at h
  split at h
  · cases h; exact ⟨rfl, rfl⟩
  · cases h

theorem foldl_received (l : List (Trial N V)) (ob : Obj N V) :
    (l.foldl (fun o t => o.setParams t.params) ob).received = ob.received ∧ (l.foldl (fun o t => o.setParams t.params) ob).frozen = ob.frozen := by
  induction l generalizing ob with
  | nil => exact ⟨rfl, rfl⟩
  | cons t l ih => rw [List.foldl_cons]; exact ih _

theorem foldl_isSome (l : List (Trial N V)) (ob : Obj N V) (n : N) :
    ((l.foldl (fun o t => o.setParams t.params) ob).attrs n).isSome = (ob.attrs n).isSome := by
  induction l generalizing ob with
  | nil => rfl
  | cons t l ih => rw [List.foldl_cons, ih]; exact setParams_isSome _ _ _

/-- The attribute a run of settings leaves is the last one set. -/
theorem foldl_last (l : List (Trial N V)) (hk : ∀ t ∈ l, (t.params.map Prod.fst).Nodup) (ob : Obj N V) (n : N) (init : V) (hi : ob.attrs n = some init) (v : V) :
    (l.foldl (fun o t => o.setParams t.params) ob).attrs n = some v ↔ Spec.Last n (l.map (·.params)) init v := by
  induction l using List.reverseRecOn generalizing v with
  | nil =>
    simp only [List.foldl_nil, hi, Option.some.injEq, List.map_nil, Spec.Last]
    constructor
    · intro h; right; exact ⟨by simp, h.symm⟩
    · rintro (⟨i, kw, h, _⟩ | ⟨_, h⟩)
      · simp at h
      · exact h.symm
  | append_singleton l t ih =>
    have ih := ih (fun t' ht' => hk t' (List.mem_append_left _ ht'))
    rw [List.foldl_append, List.foldl_cons, List.foldl_nil]
    have hkt := hk t (by simp)
    set o := l.foldl (fun o t => o.setParams t.params) ob with ho
    have hos : (o.attrs n).isSome := by rw [ho, foldl_isSome, hi]; rfl
    have hset := C16_set_exact o.attrs t.params hkt n
    have hmap : (l ++ [t]).map (·.params) = l.map (·.params) ++ [t.params] := by simp
    rw [hmap]
    have hlen : (l.map (·.params)).length = l.length := by simp
    by_cases hn : n ∈ t.params.map Prod.fst
    · obtain ⟨⟨n', w⟩, hm, hn'⟩ := List.mem_map.1 hn
      simp only at hn'; subst hn'
      have hv : (o.setParams t.params).attrs n' = some w := hset.1 w hm hos
      have huniq : ∀ w', (n', w') ∈ t.params → w' = w := by
        intro w' hm'
        have := hset.1 w' hm' hos
        have h2 := hset.1 w hm hos
        rw [this] at h2
        exact Option.some.inj h2
      rw [hv]
      constructor
      · intro h
        obtain rfl := Option.some.inj h
        left
        refine ⟨l.length, t.params, ?_, hm, ?_⟩
        · rw [List.getElem?_append_right (by rw [hlen]), hlen]; simp
        · intro j kw' hj hkw
          rw [List.getElem?_eq_none (by simp; omega)] at hkw
          cases hkw
      · rintro (⟨i, kw, hi', hmem, hlast⟩ | ⟨hno, _⟩)
        · by_cases hil : i < l.length
          · exact absurd hm (hlast l.length t.params hil (by rw [List.getElem?_append_right (by rw [hlen]), hlen]; simp) w)
          · have : i = l.length := by
              by_contra hne
              rw [List.getElem?_eq_none (by simp; omega)] at hi'
              cases hi'
            subst this
            rw [List.getElem?_append_right (by rw [hlen]), hlen] at hi'
            simp only [Nat.sub_self, List.getElem?_cons_zero, Option.some.injEq] at hi'
            subst hi'
            rw [huniq v hmem]
        · exact absurd hm (hno t.params (by simp) w)
    · have hv : (o.setParams t.params).attrs n = o.attrs n := hset.2.1 hn
      have hnot : ∀ w, (n, w) ∉ t.params := fun w hw => hn (List.mem_map.2 ⟨_, hw, rfl⟩)
      rw [hv, ih v]
      unfold Spec.Last
      constructor
      · rintro (⟨i, kw, h1, h2, h3⟩ | ⟨h1, h2⟩)
        · left
          have hil : i < (l.map (·.params)).length := by
            by_contra hc
            rw [List.getElem?_eq_none (by omega)] at h1; cases h1
          refine ⟨i, kw, by rw [List.getElem?_append_left hil]; exact h1, h2, ?_⟩
          intro j kw' hj hkw w
          by_cases hjl : j < (l.map (·.params)).length
          · rw [List.getElem?_append_left hjl] at hkw
            exact h3 j kw' hj hkw w
          · rw [List.getElem?_append_right (by omega)] at hkw
            have : kw' ∈ [t.params] := List.mem_of_getElem? hkw
            simp only [List.mem_singleton] at this
            subst this; exact hnot w
        · right
          refine ⟨?_, h2⟩
          intro kw hkw w
          rcases List.mem_append.1 hkw with h | h
          · exact h1 kw h w
          · simp only [List.mem_singleton] at h; subst h; exact hnot w
      · rintro (⟨i, kw, h1, h2, h3⟩ | ⟨h1, h2⟩)
        · left
          have hil : i < (l.map (·.params)).length := by
            by_contra hc
            rw [List.getElem?_append_right (by omega)] at h1
            have : kw ∈ [t.params] := List.mem_of_getElem? h1
            simp only [List.mem_singleton] at this
            subst this; exact hnot v h2
          rw [List.getElem?_append_left hil] at h1
          refine ⟨i, kw, h1, h2, ?_⟩
          intro j kw' hj hkw w
          have hjl : j < (l.map (·.params)).length := by
            by_contra hc
            rw [List.getElem?_eq_none (by omega)] at hkw; cases hkw
          exact h3 j kw' hj (by rw [List.getElem?_append_left hjl]; exact hkw) w
        · right
          exact ⟨fun kw hkw w => h1 kw (List.mem_append_left _ hkw) w, h2⟩

omit [DecidableEq N] in
theorem obj_ext {a b : Obj N V} (h1 : a.received = b.received) (h2 : a.attrs = b.attrs) (h3 : a.frozen = b.frozen) : a = b := by
  cases a; cases b; simp only at h1 h2 h3; subst h1 h2 h3; rfl

/-- Settings of the same names leave only the last of them. -/
theorem foldl_same_names (l : List (Trial N V)) (kw : List (N × V)) (hk : (kw.map Prod.fst).Nodup) (hl : ∀ t ∈ l, ∀ n, n ∈ t.params.map Prod.fst → n ∈ kw.map Prod.fst) (ob : Obj N V) :
    (l.foldl (fun o t => o.setParams t.params) ob).setParams kw = ob.setParams kw := by
  refine obj_ext ?_ ?_ ?_
  · exact (foldl_received l ob).1
  · funext n
    show Params.setParams (l.foldl (fun o t => o.setParams t.params) ob).attrs kw n = Params.setParams ob.attrs kw n
    by_cases hn : n ∈ kw.map Prod.fst
    · obtain ⟨⟨n', v⟩, hm, hn'⟩ := List.mem_map.1 hn
      simp only at hn'; subst hn'
      by_cases hs : (ob.attrs n').isSome
      · rw [(C16_set_exact _ kw hk n').1 v hm (by rw [foldl_isSome]; exact hs), (C16_set_exact _ kw hk n').1 v hm hs]
      · have h1 : ob.attrs n' = none := by simpa using hs
        have h2 : (l.foldl (fun o t => o.setParams t.params) ob).attrs n' = none := by
          have := foldl_isSome l ob n'
          rw [h1] at this; simpa using this
        rw [setParams_none _ _ _ h1, setParams_none _ _ _ h2]
    · rw [setParams_not_mem _ _ _ hn, setParams_not_mem _ _ _ hn]
      induction l generalizing ob with
      | nil => rfl
      | cons t l ih =>
        rw [List.foldl_cons, ih (fun t' ht' => hl t' (List.mem_cons_of_mem _ ht'))]
        exact setParams_not_mem _ _ _ (fun h => hn (hl t List.mem_cons_self n h))
  · exact (foldl_received l ob).2

theorem mapM_none (l : List (Option ℚ)) (h : none ∈ l) : l.mapM id = none := by
  induction l with
  | nil => cases h
  | cons a l ih =>
    rw [List.mapM_cons]
    cases a with
    | none => rfl
    | some a =>
      rcases List.mem_cons.1 h with h | h
      · cases h
      · rw [ih h]; rfl

theorem mapM_some (q : List ℚ) : (q.map some).mapM id = some q := by
  induction q with
  | nil => rfl
  | cons a q ih => rw [List.map_cons, List.mapM_cons, ih]; rfl

end PyF.Hyper
