import Verif.Pickle.Model
import Verif.Fast.Model
import Verif.Fast.Props

namespace PyF.Pickle
open PyF

variable {V : Type}

/-- Objects made by a constructor never lose their `states`, whatever happens to them. -/
theorem run_states : ∀ (es : List (Event V)) (o : Obj V), o.states.isSome → ∃ o', run o es = .ok o' ∧ o'.states.isSome := by
  intro es
  induction es with
  | nil => intro o h; exact ⟨o, rfl, h⟩
  | cons e es ih =>
    intro o h
    obtain ⟨s, hs⟩ := Option.isSome_iff_exists.1 h
    cases e with
    | fit n f => simp only [run, finishFit, setState, hs]; exact ih _ rfl
    | set t => simp only [run, setState, hs]; exact ih _ rfl

/-- C222: the state of a constructed object can always be read and stored, but no such object can be restored or copied: `pickle.loads`, `copy.copy` and
`copy.deepcopy` raise `AttributeError` for every object, fitted or not, and for every stored state. -/
theorem C222_never_restored (names : List String) (init : String → V) (attrs : Dict V) (es : List (Event V)) (o : Obj V) (ho : run (construct names init attrs) es = .ok o) (cp : V → V) :
    (∃ s, dumps cp o = .ok s) ∧ copy cp o = .error .attributeError ∧ ∀ s : Dict V, loads s = .error .attributeError := by
  obtain ⟨o', h1, h2⟩ := run_states es (construct names init attrs) rfl
  rw [ho] at h1
  cases h1
  obtain ⟨s, hs⟩ := Option.isSome_iff_exists.1 h2
  refine ⟨⟨fun k => (s k).map cp, by simp only [dumps, getState, hs]⟩, ?_, fun _ => rfl⟩
  simp only [copy, dumps, getState, hs]
  rfl

/-- C222: nothing can be copied, in whatever state the object is, also a blank one; a blank object cannot even be stored. -/
theorem C222_no_copy (cp : V → V) (o : Obj V) :
    copy cp o = .error .attributeError ∧ ((∃ s, dumps cp o = .ok s) ↔ o.states ≠ none) ∧ (o.states = none → dumps cp o = .error .attributeError) := by
  cases h : o.states with
  | none =>
    have e : dumps cp o = .error .attributeError := by simp only [dumps, getState, h]
    refine ⟨by simp only [copy, e], ⟨fun ⟨s, hs⟩ => (by rw [e] at hs; cases hs), fun hn => absurd rfl hn⟩, fun _ => e⟩
  | some s =>
    have e : dumps cp o = .ok (fun k => (s k).map cp) := by simp only [dumps, getState, h]
    refine ⟨by simp only [copy, e]; rfl, ⟨fun _ => (by simp), fun _ => ⟨_, e⟩⟩, fun hn => by cases hn⟩

/-- C222: classes without the two methods are copied attribute by attribute. -/
theorem C222_plain_restored (cp : V → V) (o : Dict V) (k : String) : copyPlain cp o k = (o k).map cp := by
  unfold copyPlain Dict.update
  cases h : o k <;> simp [h]

/-- C223: giving an object the state of another of the same class changes its states to those of the other one and nothing else: attributes set by a fit
(`err_distr`, `target_cols`) stay those of the receiver, or stay missing. The receiver keeps states the other one lacks. -/
theorem C223_transfer (o o' : Obj V) (s s' : Dict V) (hs : o.states = some s) (hs' : o'.states = some s') :
    ∃ r t, getState o = .ok s ∧ setState o' s = .ok r ∧ r.states = some t ∧ r.attrs = o'.attrs ∧
      (∀ k v, s k = some v → t k = some v) ∧ (∀ k, s k = none → t k = s' k) ∧ ((∀ k, (s k).isSome = (s' k).isSome) → t = s) := by
  refine ⟨{ o' with states := some (s'.update s) }, s'.update s, by simp only [getState, hs], by simp only [setState, hs'], rfl, rfl, ?_, ?_, ?_⟩
  · intro k v h; unfold Dict.update; rw [h]
  · intro k h; unfold Dict.update; rw [h]
  · intro H
    funext k
    unfold Dict.update
    cases h : s k with
    | some v => rfl
    | none =>
      have := H k
      rw [h] at this
      cases h' : s' k with
      | none => rfl
      | some v => rw [h'] at this; cases this

/-- What a state must hold for each of the three classes. -/
def HasNames (names : List String) (s : Dict V) : Prop := ∀ k, (s k).isSome ↔ k ∈ names

/-- C223: fits and transfers within a class keep the names of the states, and after a fit the states are exactly the new ones; nothing of earlier fits
or of the constructor remains. -/
theorem C223_names_kept (names : List String) : ∀ (es : List (Event V)) (o o' : Obj V) (s : Dict V), o.states = some s → HasNames names s →
    (∀ e ∈ es, match e with | .fit n _ => HasNames names n | .set t => HasNames names t) → run o es = .ok o' →
    ∃ s', o'.states = some s' ∧ HasNames names s' ∧
      ∀ es' n f, es = es' ++ [.fit n f] → s' = n ∧ ∀ k v, f k = some v → o'.attrs k = some v := by
  have upd : ∀ (a b : Dict V), HasNames names a → HasNames names b → Dict.update a b = b := by
    intro a b ha hb
    funext k
    unfold Dict.update
    cases h : b k with
    | some v => rfl
    | none =>
      cases h' : a k with
      | none => rfl
      | some v =>
        have := (hb k).2 ((ha k).1 (by rw [h']; rfl))
        rw [h] at this; cases this
  intro es
  induction es with
  | nil => intro o o' s hs hn _ hr; cases hr; exact ⟨s, hs, hn, fun es' n f h => by simp at h⟩
  | cons e es ih =>
    intro o o' s hs hn hall hr
    have he := hall e List.mem_cons_self
    have hrest := fun e' (h' : e' ∈ es) => hall e' (List.mem_cons_of_mem _ h')
    cases e with
    | fit n f =>
      simp only [run, finishFit, setState, hs] at hr
      simp only at he
      rw [upd s n hn he] at hr
      obtain ⟨s', h1, h2, h3⟩ := ih _ o' n rfl he hrest hr
      refine ⟨s', h1, h2, ?_⟩
      intro es' n' f' heq
      cases es' with
      | nil =>
        simp only [List.nil_append, List.cons.injEq, Event.fit.injEq] at heq
        obtain ⟨⟨rfl, rfl⟩, rfl⟩ := heq
        cases hr
        cases h1
        exact ⟨rfl, fun k v hv => by simp only [Dict.update, hv]⟩
      | cons _ es' =>
        simp only [List.cons_append, List.cons.injEq] at heq
        exact h3 es' n' f' heq.2
    | set t =>
      simp only [run, setState, hs] at hr
      simp only at he
      rw [upd s t hn he] at hr
      obtain ⟨s', h1, h2, h3⟩ := ih _ o' t rfl he hrest hr
      refine ⟨s', h1, h2, ?_⟩
      intro es' n' f' heq
      cases es' with
      | nil => simp only [List.nil_append, List.cons.injEq] at heq; cases heq.1
      | cons _ es' =>
        simp only [List.cons_append, List.cons.injEq] at heq
        exact h3 es' n' f' heq.2

/-- C223: for `FK` the transferred states decide the predictions: the history of coefficients, which is not among the states, does not matter. -/
theorem C223_fk_predictions (S C Y R : Type) (k : Fast.FK S C Y R) (o o' : Fast.FKObj S C) (y : List Y) :
    (Fast.fkRun k { o' with states := o.states } y false).2 = (Fast.fkRun k o y false).2 := by
  rw [(Fast.fkRun_spec k { o' with states := o.states } o.hist y false).1]

end PyF.Pickle
