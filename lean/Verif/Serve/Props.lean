import Verif.Serve.Model
import Verif.Bench.Props

namespace PyF.Serve
open PyF PyF.Quantile

variable {X : Type} {T : Nat}

/-- All lists of quantiles of a table have `nq` entries. -/
def Width (nq : Nat) : ErrDistr T → Prop
  | .unfitted => True
  | .byHour f => ∀ h j, (f h j).length = nq
  | .pooled t => ∀ j, (t j).length = nq

theorem lookup_width (nq : Nat) (ed : ErrDistr T) (hw : Width nq ed) (h : Fin 24) (d : Table T) (hd : lookup ed h = .ok d) (j : Fin T) :
    (d j).length = nq := by
  cases ed with
  | unfitted => cases hd
  | byHour f =>
    rw [← Except.ok.inj hd]
    exact hw h j
  | pooled t =>
    unfold lookup at hd
    simp only at hd
    split at hd
    · rw [← Except.ok.inj hd]
      exact hw _
    · cases hd

theorem rowQuantiles_eq (ed : ErrDistr T) (h : Fin 24) (p : Fin T → ℚ) :
    rowQuantiles ed h p = (lookup ed h).map (fun d j => (d j).map (fun e => p j + e)) := by
  cases ed with
  | unfitted => rfl
  | byHour f => rfl
  | pooled t =>
    unfold rowQuantiles lookup
    simp only
    split <;> rfl

theorem replicate_add (nq : Nat) (c : ℚ) (l : List ℚ) (h : l.length = nq) :
    List.zipWith (fun (a b : ℚ) => a + b) (List.replicate nq c) l = l.map (fun e => c + e) := by
  subst h
  induction l with
  | nil => rfl
  | cons a l ih => simp [List.replicate_succ, ih]

/-- The value of a row after the hours `done` have been treated. -/
def partway (predict : X → Fin T → ℚ) (nq : Nat) (ed : ErrDistr T) (done : List (Fin 24)) (r : X × Fin 24) : Table T :=
  fun j => if r.2 ∈ done then
      match lookup ed r.2 with
      | .ok d => (d j).map (fun e => predict r.1 j + e)
      | .error _ => List.replicate nq (predict r.1 j)
    else List.replicate nq (predict r.1 j)

theorem zipWith_rows (F : Fin 24 → Table T → Table T) (G : X × Fin 24 → Table T) : ∀ (rows : List (X × Fin 24)),
    List.zipWith F (rows.map Prod.snd) (rows.map G) = rows.map (fun r => F r.2 (G r)) := by
  intro rows
  induction rows with
  | nil => rfl
  | cons r rows ih => simp [ih]

theorem loop_eq (predict : X → Fin T → ℚ) (nq : Nat) (ed : ErrDistr T) (hw : Width nq ed) (rows : List (X × Fin 24)) :
    ∀ (todo done : List (Fin 24)), (∀ h ∈ todo, h ∉ done) → todo.Nodup → (∀ h ∈ todo, ∃ d, lookup ed h = .ok d) →
      todo.foldlM (turn ed (rows.map Prod.snd)) (rows.map (partway predict nq ed done)) = .ok (rows.map (partway predict nq ed (done ++ todo))) := by
  intro todo
  induction todo with
  | nil => intro done _ _ _; simp; rfl
  | cons h todo ih =>
    intro done hd hn hl
    obtain ⟨d, hdh⟩ := hl h (by simp)
    rw [List.nodup_cons] at hn
    have step : turn ed (rows.map Prod.snd) (rows.map (partway predict nq ed done)) h = .ok (rows.map (partway predict nq ed (done ++ [h]))) := by
      unfold turn
      rw [hdh]
      simp only
      unfold addWhere
      rw [zipWith_rows]
      congr 1
      apply List.map_congr_left
      intro r _
      by_cases hr : r.2 = h
      · rw [if_pos hr]
        funext j
        unfold partway
        rw [if_neg (by rw [hr]; exact hd h (by simp)), if_pos (by simp [hr]), hr, hdh]
        exact replicate_add nq _ _ (lookup_width nq ed hw h d hdh j)
      · rw [if_neg hr]
        funext j
        unfold partway
        by_cases hm : r.2 ∈ done
        · rw [if_pos hm, if_pos (by simp [hm])]
        · rw [if_neg hm, if_neg (by simp [hm, hr])]
    rw [List.foldlM_cons, step]
    have := ih (done ++ [h]) (by
      intro g hg
      rw [List.mem_append, List.mem_singleton]
      rintro (hg' | rfl)
      · exact hd g (by simp [hg]) hg'
      · exact hn.1 hg) hn.2 (fun g hg => hl g (by simp [hg]))
    rw [List.append_assoc, List.singleton_append] at this
    exact this

theorem mem_uniqueHours (hours : List (Fin 24)) (h : Fin 24) : h ∈ uniqueHours hours ↔ h ∈ hours := by
  unfold uniqueHours
  simp [List.mem_filter, List.mem_finRange]

theorem nodup_uniqueHours (hours : List (Fin 24)) : (uniqueHours hours).Nodup := (List.nodup_finRange 24).filter _

theorem mapM_error_uniform {α β : Type} (f : α → Except PyErr β) (e : PyErr) : ∀ (l : List α), (∀ a ∈ l, ∀ e', f a = .error e' → e' = e) →
    (∃ a ∈ l, ∃ e', f a = .error e') → l.mapM f = .error e := by
  intro l
  induction l with
  | nil => rintro _ ⟨a, ha, _⟩; simp at ha
  | cons b l ih =>
    intro h1 h2
    rw [List.mapM_cons]
    cases hb : f b with
    | error e' =>
      rw [h1 b (by simp) e' hb]
      rfl
    | ok v =>
      have : l.mapM f = .error e := by
        apply ih (fun a ha => h1 a (by simp [ha]))
        obtain ⟨a, ha, e', hae⟩ := h2
        rw [List.mem_cons] at ha
        rcases ha with rfl | ha
        · rw [hb] at hae; cases hae
        · exact ⟨a, ha, e', hae⟩
      rw [this]
      rfl

theorem mapM_ok {α β : Type} (f : α → Except PyErr β) (g : α → β) : ∀ (l : List α), (∀ a ∈ l, f a = .ok (g a)) → l.mapM f = .ok (l.map g) := by
  intro l
  induction l with
  | nil => intro _; rfl
  | cons b l ih =>
    intro h
    rw [List.mapM_cons, h b (by simp), ih (fun a ha => h a (by simp [ha]))]
    rfl

/-- The only exception a lookup in a given error distribution can raise. -/
def lookupErr (ed : ErrDistr T) : PyErr := match ed with | .unfitted => .keyError | _ => .indexError

theorem lookup_err (ed : ErrDistr T) (h : Fin 24) (e : PyErr) (he : lookup ed h = .error e) : e = lookupErr ed := by
  cases ed with
  | unfitted => cases he; rfl
  | byHour f => cases he
  | pooled t =>
    unfold lookup at he
    simp only at he
    split at he
    · cases he
    · cases he; rfl

theorem foldlM_error (ed : ErrDistr T) (hours : List (Fin 24)) : ∀ (todo : List (Fin 24)) (p : List (Table T)),
    (∃ h ∈ todo, ∃ e, lookup ed h = .error e) → todo.foldlM (turn ed hours) p = .error (lookupErr ed) := by
  intro todo
  induction todo with
  | nil => rintro p ⟨h, hh, _⟩; simp at hh
  | cons g todo ih =>
    rintro p ⟨h, hh, e, he⟩
    rw [List.foldlM_cons]
    cases hg : lookup ed g with
    | error e' =>
      have : turn ed hours p g = .error e' := by unfold turn; rw [hg]
      rw [this, lookup_err ed g e' hg]
      rfl
    | ok d =>
      have ht : turn ed hours p g = .ok (addWhere g d hours p) := by unfold turn; rw [hg]
      rw [ht]
      apply ih
      rw [List.mem_cons] at hh
      rcases hh with rfl | hh
      · rw [hg] at he; cases he
      · exact ⟨h, hh, e, he⟩

/-- C238: the loop over the hours, with its masked additions in place, gives every row the quantiles it would get alone,
for every frame: unsorted, with repeated stamps, with any of the hours missing. If some hour cannot be looked up, no forecast
is returned. -/
theorem C238_loop_is_row_by_row (predict : X → Fin T → ℚ) (nq : Nat) (ed : ErrDistr T) (hw : Width nq ed) (rows : List (X × Fin 24)) :
    hourly predict nq ed rows = predictQuantiles predict ed rows := by
  unfold hourly predictQuantiles
  by_cases hall : ∀ h ∈ uniqueHours (rows.map Prod.snd), ∃ d, lookup ed h = .ok d
  · have h0 : spread predict nq rows = rows.map (partway predict nq ed []) := by
      unfold spread partway
      simp
    rw [h0, loop_eq predict nq ed hw rows (uniqueHours (rows.map Prod.snd)) [] (by simp) (nodup_uniqueHours _) hall, List.nil_append]
    symm
    apply mapM_ok
    intro r hr
    have hm : r.2 ∈ uniqueHours (rows.map Prod.snd) := by
      rw [mem_uniqueHours]
      exact List.mem_map.2 ⟨r, hr, rfl⟩
    obtain ⟨d, hd⟩ := hall _ hm
    rw [rowQuantiles_eq, hd]
    simp only [Except.map]
    congr 1
    funext j
    unfold partway
    rw [if_pos hm, hd]
  · push Not at hall
    obtain ⟨h, hh, hne⟩ := hall
    have he : ∃ e, lookup ed h = .error e := by
      cases hl : lookup ed h with
      | error e => exact ⟨e, rfl⟩
      | ok d => exact absurd hl (hne d)
    rw [foldlM_error ed _ _ _ ⟨h, hh, he⟩]
    symm
    apply mapM_error_uniform
    · intro r _ e' hr
      rw [rowQuantiles_eq] at hr
      cases hl : lookup ed r.2 with
      | error e =>
        rw [hl] at hr
        rw [lookup_err ed r.2 e hl] at hr
        exact (Except.error.inj hr).symm
      | ok d => rw [hl] at hr; cases hr
    · rw [mem_uniqueHours] at hh
      obtain ⟨r, hr, rfl⟩ := List.mem_map.1 hh
      obtain ⟨e, he⟩ := he
      exact ⟨r, hr, e, by rw [rowQuantiles_eq, he]; rfl⟩

theorem mapM_inv {α β : Type} (f : α → Except PyErr β) : ∀ (l : List α) (out : List β), l.mapM f = .ok out →
    out.length = l.length ∧ ∀ (i : Nat) (a : α), l[i]? = some a → ∃ b, f a = .ok b ∧ out[i]? = some b := by
  intro l
  induction l with
  | nil =>
    intro out h
    cases h
    exact ⟨rfl, by simp⟩
  | cons c l ih =>
    intro out h
    rw [List.mapM_cons] at h
    cases hc : f c with
    | error e => rw [hc] at h; cases h
    | ok v =>
      cases hl : l.mapM f with
      | error e => rw [hc, hl] at h; cases h
      | ok w =>
        rw [hc, hl] at h
        cases h
        obtain ⟨h1, h2⟩ := ih w hl
        refine ⟨by simp [h1], ?_⟩
        intro i a hi
        cases i with
        | zero =>
          simp only [List.getElem?_cons_zero, Option.some.injEq] at hi
          subst hi
          exact ⟨v, hc, rfl⟩
        | succ i => exact h2 i a (by simpa using hi)

/-- C238 (batches): whatever rows of a frame are asked for together, in whatever order and however often, each gets the
quantiles it has in the forecast of the whole frame. -/
theorem C238_batch_independent (predict : X → Fin T → ℚ) (nq : Nat) (ed : ErrDistr T) (hw : Width nq ed) (rows : List (X × Fin 24))
    (out : List (Table T)) (h : hourly predict nq ed rows = .ok out) (sel : List Nat) (hs : ∀ i ∈ sel, i < rows.length) :
    hourly predict nq ed (sel.filterMap (fun (i : Nat) => rows[i]?)) = .ok (sel.filterMap (fun (i : Nat) => out[i]?)) := by
  rw [C238_loop_is_row_by_row predict nq ed hw] at h ⊢
  unfold predictQuantiles at h ⊢
  obtain ⟨h1, h2⟩ := mapM_inv _ _ _ h
  induction sel with
  | nil => rfl
  | cons i sel ih =>
    have hi := hs i (by simp)
    obtain ⟨b, hb1, hb2⟩ := h2 i rows[i] (List.getElem?_eq_getElem hi)
    rw [List.filterMap_cons, List.getElem?_eq_getElem hi, List.filterMap_cons, hb2]
    simp only
    rw [List.mapM_cons, hb1, ih (fun k hk => hs k (by simp [hk]))]
    rfl

/-- C238 (persistent forecasters): without the hour the persistent forecasters add to each target its own error quantiles,
with the hour they do what the other forecasters do; the error table must be of the kind `fit` makes for the same setting. -/
theorem C238_persistent (predict : X → Fin T → ℚ) (nq : Nat) (ed : ErrDistr T) (hw : Width nq ed) (rows : List (X × Fin 24)) :
    persistent true predict nq ed rows = predictQuantiles predict ed rows ∧
      (∀ t, ed = .pooled t → persistent false predict nq ed rows = .ok (rows.map (fun r j => (t j).map (fun e => predict r.1 j + e)))) ∧
      ((∀ t, ed ≠ .pooled t) → persistent false predict nq ed rows = .error .typeError) := by
  refine ⟨?_, ?_, ?_⟩
  · rw [← C238_loop_is_row_by_row predict nq ed hw]
    rfl
  · rintro t rfl
    unfold persistent spread
    simp only [Bool.false_eq_true, if_false, List.map_map]
    congr 1
    apply List.map_congr_left
    intro r _
    funext j
    exact replicate_add nq _ _ (hw j)
  · intro h
    cases ed with
    | unfitted => rfl
    | byHour f => rfl
    | pooled t => exact absurd rfl (h t)

end PyF.Serve
