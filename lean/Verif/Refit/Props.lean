import Verif.Refit.Model
import Mathlib.Tactic.Set
import Mathlib.Tactic.Tauto

namespace PyF.Refit
open PyF

variable {D M G X V : Type}

/-! ### Specification: what a freshly constructed object fitted once predicts -/

/-- Column `i` comes from the model trained on column `i` of `d`. -/
def freshLgb (o : Oracle D M G X V) (d : D) (x : X) : List V :=
  (List.range (o.width d)).map (fun i => o.pred (o.train d i) x)

/-- The first `nSingle` columns from their own models trained on `d₁`, the rest from the global model trained
on `d₂`. A sound refit has `d₁ = d₂`. -/
def hybridOf (o : Oracle D M G X V) (nSingle : Nat) (d₁ d₂ : D) (x : X) : List V :=
  (List.range nSingle).map (fun i => o.pred (o.train d₁ i) x)
    ++ (List.range (o.width d₂ - nSingle)).map (fun j => o.predMulti (o.trainMulti d₂) j x)

/-! ### LGBForecaster -/

theorem lgbFit_state (o : Oracle D M G X V) (xVal : D → X) (s : LState M) (d : D) :
    (lgbFit o xVal s d).1 = ⟨s.m ++ (List.range (o.width d)).map (o.train d), some (o.width d)⟩ := by
  unfold lgbFit
  simp only
  split <;> rfl

theorem lgbHistory_append (o : Oracle D M G X V) (xVal : D → X) (s : LState M) (ds : List D) (d : D) :
    lgbHistory o xVal s (ds ++ [d]) = (lgbFit o xVal (lgbHistory o xVal s ds) d).1 := by
  induction ds generalizing s with
  | nil => rfl
  | cons a ds ih => simp only [List.cons_append, lgbHistory]; exact ih _

/-- The model list is append only: it holds every model ever fitted. -/
theorem lgbHistory_m (o : Oracle D M G X V) (xVal : D → X) (s : LState M) (ds : List D) :
    (lgbHistory o xVal s ds).m = s.m ++ ds.flatMap (fun d => (List.range (o.width d)).map (o.train d)) := by
  induction ds generalizing s with
  | nil => simp [lgbHistory]
  | cons a ds ih => simp only [lgbHistory, ih, lgbFit_state, List.flatMap_cons, List.append_assoc]

/-- C15 (first fit): a fresh `LGBForecaster` fitted on `d` predicts with the models trained on `d`. -/
theorem C15_lgb_first_fit (o : Oracle D M G X V) (xVal : D → X) (d : D) (hd : 0 < o.width d) :
    (lgbFit o xVal LState.fresh d).2 = none ∧
    ∀ x, lgbPredict o (lgbFit o xVal LState.fresh d).1 x = .ok (freshLgb o d x) := by
  have h : ∀ x, lgbPredict o (lgbFit o xVal LState.fresh d).1 x = .ok (freshLgb o d x) := by
    intro x
    rw [lgbFit_state]
    have h0 : o.width d ≠ 0 := by omega
    simp [lgbPredict, mkFrame, LState.fresh, freshLgb, h0, Function.comp_def]
  refine ⟨?_, h⟩
  have h2 := h (xVal d)
  rw [lgbFit_state] at h2
  unfold lgbFit
  simp only [h2]

/-- C15 (refit, exact): after any history of `fit` calls on a fresh object, of which some earlier one had a
target, fitting on any further data set raises `ValueError`, and so does every later `predict`. Conversely when no
earlier one had a target the object behaves as freshly fitted on the last data set. -/
theorem C15_lgb_refit (o : Oracle D M G X V) (xVal : D → X) (pre : List D) (d : D) (hd : 0 < o.width d) :
    let s := lgbHistory o xVal LState.fresh pre
    ((∃ d' ∈ pre, 0 < o.width d') →
      (lgbFit o xVal s d).2 = some .valueError ∧
      ∀ x, lgbPredict o (lgbFit o xVal s d).1 x = .error .valueError) ∧
    ((∀ d' ∈ pre, o.width d' = 0) →
      (lgbFit o xVal s d).2 = none ∧
      ∀ x, lgbPredict o (lgbFit o xVal s d).1 x = .ok (freshLgb o d x)) := by
  intro s
  constructor
  · rintro ⟨d', hd', hw⟩
    have hpos : 0 < s.m.length := by
      have : o.train d' 0 ∈ s.m := by
        simp only [s, lgbHistory_m, List.mem_append, List.mem_flatMap, List.mem_map, List.mem_range]
        exact Or.inr ⟨d', hd', 0, hw, rfl⟩
      exact List.length_pos_of_mem this
    have h : ∀ x, lgbPredict o (lgbFit o xVal s d).1 x = .error .valueError := by
      intro x
      rw [lgbFit_state]
      simp only [lgbPredict, mkFrame]
      split
      · rfl
      · rw [if_neg]
        simp only [List.map_append, List.length_append, List.length_map, List.length_range]
        omega
    refine ⟨?_, h⟩
    have h2 := h (xVal d)
    rw [lgbFit_state] at h2
    unfold lgbFit
    simp only [h2]
  · intro h0
    have hm : s.m = [] := by
      simp only [s, lgbHistory_m, LState.fresh, List.nil_append, List.flatMap_eq_nil_iff]
      intro d' hd'
      simp [h0 d' hd']
    have := C15_lgb_first_fit o xVal d hd
    have e : (lgbFit o xVal s d) = lgbFit o xVal LState.fresh d := by
      simp [lgbFit, hm, LState.fresh]
    rw [e]; exact this

/-- C15 (no recovery): once two fits with targets have happened, the object never predicts again, whatever
is fitted afterwards. -/
theorem C15_lgb_never_recovers (o : Oracle D M G X V) (xVal : D → X) (d₁ d₂ : D) (mid post : List D)
    (h₁ : 0 < o.width d₁) (h₂ : 0 < o.width d₂) (hp : ∀ d ∈ post, 0 < o.width d) (x : X) :
    lgbPredict o (lgbHistory o xVal LState.fresh (d₁ :: mid ++ [d₂] ++ post)) x = .error .valueError := by
  rcases List.eq_nil_or_concat post with h | ⟨post', d, h⟩
  · subst h
    rw [List.append_nil, lgbHistory_append]
    exact ((C15_lgb_refit o xVal (d₁ :: mid) d₂ h₂).1 ⟨d₁, List.mem_cons_self, h₁⟩).2 x
  · subst h
    rw [List.concat_eq_append, ← List.append_assoc, lgbHistory_append]
    refine ((C15_lgb_refit o xVal (d₁ :: mid ++ [d₂] ++ post') d (hp d (by simp))).1 ⟨d₁, ?_, h₁⟩).2 x
    simp

/-! ### LGBMHybrid, QRF -/

theorem takeRows_range_append {α : Type} (a b : List α) (n : Nat) (h : a.length = n) :
    takeRows (a ++ b) (List.range n) = .ok a := by
  rw [takeRows_ok_iff]
  apply List.ext_getElem?
  intro i
  subst h
  simp only [List.getElem?_map]
  by_cases hi : i < a.length
  · simp [List.getElem?_range hi, List.getElem?_append_left hi, List.getElem?_eq_getElem hi]
  · have h1 : (List.range a.length)[i]? = none := by simp; omega
    have h2 : a[i]? = none := by simp; omega
    simp [h1, h2]

theorem hybPredict_of_state (o : Oracle D M G X V) (nSingle : Nat) (d₁ d₂ : D) (rest : List M)
    (hw : nSingle ≤ o.width d₂) (h1 : 0 < o.width d₂) (mu : Option G)
    (hmu : o.width d₂ - nSingle > 0 → mu = some (o.trainMulti d₂)) (x : X) :
    hybPredict o nSingle ⟨(List.range nSingle).map (o.train d₁) ++ rest, mu,
      some (o.width d₂ - nSingle), some (o.width d₂)⟩ x = .ok (hybridOf o nSingle d₁ d₂ x) := by
  have ht := takeRows_range_append ((List.range nSingle).map (o.train d₁)) rest nSingle (by simp)
  simp only [hybPredict, singles, ht]
  by_cases hk : o.width d₂ - nSingle > 0
  · rw [if_pos hk, hmu hk]
    simp only [mkFrame]
    rw [if_neg, if_pos]
    · simp [hybridOf, Function.comp_def]
    · simp; omega
    · simp only [List.isEmpty_iff]
      intro h
      have := congrArg List.length h
      simp at this; omega
  · rw [if_neg hk]
    have e : o.width d₂ = nSingle := by omega
    simp only [mkFrame]
    rw [if_neg, if_pos]
    · simp [hybridOf, Function.comp_def, e]
    · simp; omega
    · simp only [List.isEmpty_iff]
      intro h
      have := congrArg List.length h
      simp at this; omega

theorem hybFit_state (o : Oracle D M G X V) (xVal : D → X) (nSingle : Nat) (parallel : Bool) (s : HState M G)
    (d : D) (hw : nSingle ≤ o.width d) :
    (hybFit o xVal nSingle parallel s d).1 =
      { models := if parallel then (List.range nSingle).map (o.train d)
          else s.models ++ (List.range nSingle).map (o.train d)
        multi := if o.width d - nSingle > 0 then some (o.trainMulti d) else s.multi
        nMulti := some (o.width d - nSingle)
        targetCols := some (o.width d) } := by
  unfold hybFit
  have h1 : ¬ o.width d < nSingle := by omega
  have h2 : min nSingle (o.width d) = nSingle := by omega
  simp only [h2]
  rw [if_neg h1]
  split <;> rfl

theorem hybHistory_append (o : Oracle D M G X V) (xVal : D → X) (nSingle : Nat) (parallel : Bool)
    (s : HState M G) (ds : List D) (d : D) :
    hybHistory o xVal nSingle parallel s (ds ++ [d])
      = (hybFit o xVal nSingle parallel (hybHistory o xVal nSingle parallel s ds) d).1 := by
  induction ds generalizing s with
  | nil => rfl
  | cons a ds ih => simp only [List.cons_append, hybHistory]; exact ih _

theorem hybHistory_models (o : Oracle D M G X V) (xVal : D → X) (nSingle : Nat) (s : HState M G) (ds : List D)
    (hw : ∀ d ∈ ds, nSingle ≤ o.width d) :
    (hybHistory o xVal nSingle false s ds).models
      = s.models ++ ds.flatMap (fun d => (List.range nSingle).map (o.train d)) := by
  induction ds generalizing s with
  | nil => simp [hybHistory]
  | cons a ds ih =>
    simp only [hybHistory]
    rw [ih _ (fun d hd => hw d (List.mem_cons_of_mem _ hd)), hybFit_state _ _ _ _ _ _ (hw a List.mem_cons_self)]
    simp

/-- C15 (hybrid, sequential training): after any history of successful fits starting with `d₁` and ending with
`d₂`, `predict` never fails but mixes models: the first `n_single` steps still come from the very first data
set, the other steps from the last one. -/
theorem C15_hybrid_stale (o : Oracle D M G X V) (xVal : D → X) (nSingle : Nat) (d₁ d₂ : D) (mid : List D)
    (hw : ∀ d ∈ d₁ :: mid ++ [d₂], nSingle ≤ o.width d) (h1 : 0 < o.width d₂) (x : X) :
    hybPredict o nSingle (hybHistory o xVal nSingle false HState.fresh (d₁ :: mid ++ [d₂])) x
      = .ok (hybridOf o nSingle d₁ d₂ x) := by
  rw [hybHistory_append, hybFit_state _ _ _ _ _ _ (hw d₂ (by simp))]
  rw [hybHistory_models _ _ _ _ _ (fun d hd => hw d (by
    simp only [List.cons_append, List.mem_cons, List.mem_append] at hd ⊢; tauto))]
  simp only [Bool.false_eq_true, if_false, HState.fresh, List.nil_append, List.flatMap_cons, List.append_assoc]
  apply hybPredict_of_state _ _ _ _ _ (hw d₂ (by simp)) h1
  intro h
  simp [h]

/-- C15 (hybrid, first fit): fitted once, sequentially or in parallel, it predicts with the models of that
data set. -/
theorem C15_hybrid_first_fit (o : Oracle D M G X V) (xVal : D → X) (nSingle : Nat) (parallel : Bool) (d : D)
    (hw : nSingle ≤ o.width d) (h1 : 0 < o.width d) (x : X) :
    hybPredict o nSingle (hybFit o xVal nSingle parallel HState.fresh d).1 x = .ok (hybridOf o nSingle d d x) := by
  rw [hybFit_state _ _ _ _ _ _ hw]
  have := hybPredict_of_state o nSingle d d [] hw h1 (some (o.trainMulti d)) (fun _ => rfl) x
  by_cases hk : o.width d - nSingle > 0
  · cases parallel <;> simpa [HState.fresh, hk] using this
  · have := hybPredict_of_state o nSingle d d [] hw h1 none (fun h => absurd h hk) x
    cases parallel <;> simpa [HState.fresh, hk] using this

/-- C15 (hybrid, parallel training): with `parallel=True` a refit is sound: whatever the state of the object,
after `fit` on `d` it predicts as a fresh object fitted on `d`. -/
theorem C15_hybrid_parallel_refit (o : Oracle D M G X V) (xVal : D → X) (nSingle : Nat) (s : HState M G) (d : D)
    (hw : nSingle ≤ o.width d) (h1 : 0 < o.width d) (x : X) :
    hybPredict o nSingle (hybFit o xVal nSingle true s d).1 x
      = hybPredict o nSingle (hybFit o xVal nSingle true HState.fresh d).1 x := by
  rw [C15_hybrid_first_fit o xVal nSingle true d hw h1, hybFit_state _ _ _ _ _ _ hw]
  have := hybPredict_of_state o nSingle d d [] hw h1
    (if o.width d - nSingle > 0 then some (o.trainMulti d) else s.multi) (fun h => by simp [h]) x
  simpa using this

/-- C15 (too few targets): a sequential `fit` on data with fewer than `n_single` targets raises `IndexError`, yet
its models stay in the list: if it came first, they answer for the first steps of every later prediction. -/
theorem C15_hybrid_failed_fit_leaks (o : Oracle D M G X V) (xVal : D → X) (nSingle : Nat) (d₀ d : D)
    (h0 : o.width d₀ < nSingle) (hw : nSingle ≤ o.width d) (x : X) :
    (hybFit o xVal nSingle false HState.fresh d₀).2 = some .indexError ∧
    ∃ cols, hybPredict o nSingle (hybHistory o xVal nSingle false HState.fresh [d₀, d]) x = .ok cols ∧
      ∀ i < o.width d₀, cols[i]? = some (o.pred (o.train d₀ i) x) := by
  have hmin : min nSingle (o.width d₀) = o.width d₀ := by omega
  have hf : hybFit o xVal nSingle false (HState.fresh : HState M G) d₀
      = (⟨(List.range (o.width d₀)).map (o.train d₀), none, none, none⟩, some .indexError) := by
    simp [hybFit, h0, hmin, HState.fresh]
  refine ⟨by rw [hf], ?_⟩
  simp only [hybHistory, hf]
  rw [hybFit_state _ _ _ _ _ _ hw]
  simp only [Bool.false_eq_true, if_false]
  -- the first `nSingle` elements of the model list
  set L := (List.range (o.width d₀)).map (o.train d₀) ++ (List.range nSingle).map (o.train d) with hL
  have hlen : nSingle ≤ L.length := by simp [hL]
  have ht : takeRows L (List.range nSingle) = .ok (L.take nSingle) := by
    have := takeRows_range_append (L.take nSingle) (L.drop nSingle) nSingle (by simp [hlen])
    rwa [List.take_append_drop] at this
  have hget : ∀ (i : Nat), i < o.width d₀ →
      ((L.take nSingle).map (fun m => o.pred m x))[i]? = some (o.pred (o.train d₀ i) x) := by
    intro i hi
    have h2 : i < nSingle := by omega
    simp [h2, hL, hi]
  have hsl : (List.map (fun m => o.pred m x) (List.take nSingle L)).length = nSingle := by simp [hlen]
  have hget' : ∀ (r : List V) (i : Nat), i < o.width d₀ →
      ((L.take nSingle).map (fun m => o.pred m x) ++ r)[i]? = some (o.pred (o.train d₀ i) x) := by
    intro r i hi
    rw [List.getElem?_append_left (by rw [hsl]; omega)]
    exact hget i hi
  by_cases hk : o.width d - nSingle > 0
  · refine ⟨_, ?_, hget' ((List.range (o.width d - nSingle)).map
      (fun j => o.predMulti (o.trainMulti d) j x))⟩
    simp only [hybPredict, singles, ht, hk, if_true, mkFrame]
    rw [if_neg, if_pos]
    · rw [List.length_append, hsl]; simp; omega
    · simp only [List.isEmpty_iff]
      intro h
      have := congrArg List.length h
      rw [List.length_append, hsl] at this
      simp at this; omega
  · refine ⟨_, ?_, hget⟩
    simp only [hybPredict, singles, ht, hk, if_false, mkFrame]
    rw [if_neg, if_pos]
    · rw [hsl]; omega
    · simp only [List.isEmpty_iff]
      intro h
      have := congrArg List.length h
      rw [hsl] at this
      simp at this; omega

/-! ### Concrete instances -/

/-- A data set is a tag and a number of targets; a model remembers what it was trained on. -/
def exO : Oracle (Nat × Nat) (Nat × Nat) Nat Unit (Nat × Nat) where
  width d := d.2
  train d i := (d.1, i)
  trainMulti d := d.1
  pred m _ := m
  predMulti g j _ := (g, 100 + j)

example : lgbPredict exO (lgbHistory exO (fun _ => ()) LState.fresh [(1, 2)]) () = .ok [(1, 0), (1, 1)] := rfl
example : lgbPredict exO (lgbHistory exO (fun _ => ()) LState.fresh [(1, 2), (2, 2)]) () = .error .valueError := rfl
/-- Three targets, two single models: refitted on data set 2, steps 0 and 1 still answer from data set 1. -/
example : hybPredict exO 2 (hybHistory exO (fun _ => ()) 2 false HState.fresh [(1, 3), (2, 3)]) ()
    = .ok [(1, 0), (1, 1), (2, 100)] := rfl
example : hybPredict exO 2 (hybHistory exO (fun _ => ()) 2 true HState.fresh [(1, 3), (2, 3)]) ()
    = .ok [(2, 0), (2, 1), (2, 100)] := rfl
/-- A failed fit on one target, then a good one: step 0 answers from the failed data set. -/
example : hybPredict exO 2 (hybHistory exO (fun _ => ()) 2 false HState.fresh [(1, 1), (2, 3)]) ()
    = .ok [(1, 0), (2, 0), (2, 100)] := rfl

/-- C15 (before any fit): `predict` of an `LGBForecaster` raises `ValueError`; that of `LGBMHybrid` and `QRF` raises `IndexError` if it has single-step models
and `TypeError` if it has none. Nothing is ever returned. -/
theorem C15_before_fit (o : Oracle D M G X V) (nSingle : Nat) (x : X) :
    lgbPredict o LState.fresh x = .error .valueError ∧
      hybPredict o nSingle HState.fresh x = .error (if nSingle = 0 then .typeError else .indexError) := by
  refine ⟨rfl, ?_⟩
  cases nSingle with
  | zero => rfl
  | succ n => rw [if_neg (by omega)]; simp [hybPredict, singles, HState.fresh, takeRows, List.range_succ_eq_map]

end PyF.Refit
