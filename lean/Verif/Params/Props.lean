import Verif.Params.Model
import Mathlib.Data.List.Nodup

namespace PyF.Params
open PyF

variable {N V : Type} [DecidableEq N]

theorem set_apply (a : Attrs N V) (k n : N) (v : V) : a.set k v n = if n = k then some v else a n := rfl

theorem setParams_isSome (a : Attrs N V) (kw : List (N × V)) (n : N) :
    (setParams a kw n).isSome = (a n).isSome := by
  induction kw generalizing a with
  | nil => rfl
  | cons p kw ih =>
    obtain ⟨k, v⟩ := p
    simp only [setParams]
    rw [ih]
    by_cases h : (a k).isSome = true
    · rw [if_pos h, set_apply]
      by_cases hn : n = k
      · subst hn; simp [h]
      · simp [hn]
    · rw [if_neg h]

theorem setParams_not_mem (a : Attrs N V) (kw : List (N × V)) (n : N) (h : n ∉ kw.map Prod.fst) :
    setParams a kw n = a n := by
  induction kw generalizing a with
  | nil => rfl
  | cons p kw ih =>
    obtain ⟨k, v⟩ := p
    simp only [List.map_cons, List.mem_cons, not_or] at h
    simp only [setParams]
    rw [ih _ h.2]
    split
    · rw [set_apply, if_neg h.1]
    · rfl

/-- C16 (set, exact): an attribute named in the call (names are distinct in a Python call) gets the given value,
an attribute not named keeps its value, and no attribute is created. -/
theorem C16_set_exact (a : Attrs N V) (kw : List (N × V)) (hk : (kw.map Prod.fst).Nodup) (n : N) :
    (∀ v, (n, v) ∈ kw → (a n).isSome → setParams a kw n = some v) ∧
    (n ∉ kw.map Prod.fst → setParams a kw n = a n) ∧
    (a n = none → setParams a kw n = none) := by
  refine ⟨?_, setParams_not_mem a kw n, ?_⟩
  · induction kw generalizing a with
    | nil => intro v h; cases h
    | cons p kw ih =>
      obtain ⟨k, w⟩ := p
      intro v hm hs
      simp only [List.map_cons, List.nodup_cons] at hk
      rcases List.mem_cons.1 hm with h | h
      · cases h
        simp only [setParams, if_pos hs]
        rw [setParams_not_mem _ _ _ hk.1, set_apply, if_pos rfl]
      · simp only [setParams]
        refine ih _ hk.2 v h ?_
        split
        · rw [set_apply]; split
          · rfl
          · exact hs
        · exact hs
  · intro h
    have := setParams_isSome a kw n
    rw [h] at this
    simpa using this

omit [DecidableEq N] in
theorem getParams_mem (sig : List N) (a : Attrs N V) (n : N) (v : V) :
    (n, v) ∈ getParams sig a ↔ n ∈ sig ∧ a n = some v := by
  simp only [getParams, List.mem_filterMap, Option.map_eq_some_iff, Prod.mk.injEq]
  constructor
  · rintro ⟨k, hk, w, hw, rfl, rfl⟩; exact ⟨hk, hw⟩
  · rintro ⟨h, e⟩; exact ⟨n, h, v, e, rfl, rfl⟩

omit [DecidableEq N] in
/-- C16 (get, exact): `get_params` lists exactly the signature names that are attributes, each once and in
signature order, with the current value. -/
theorem C16_get_exact (sig : List N) (a : Attrs N V) :
    (∀ n v, (n, v) ∈ getParams sig a ↔ n ∈ sig ∧ a n = some v) ∧
    (getParams sig a).map Prod.fst = sig.filter (fun n => (a n).isSome) := by
  refine ⟨getParams_mem sig a, ?_⟩
  induction sig with
  | nil => rfl
  | cons k sig ih =>
    simp only [getParams, List.filterMap_cons] at ih ⊢
    cases h : a k with
    | none => simp [h, ih]
    | some v => simp [h, ih]

omit [DecidableEq N] in
theorem getParams_nodup (sig : List N) (a : Attrs N V) (hs : sig.Nodup) :
    ((getParams sig a).map Prod.fst).Nodup := by
  rw [(C16_get_exact sig a).2]; exact hs.filter _

/-- C16 (round trip): `obj.set_params(**obj.get_params())` changes nothing. -/
theorem C16_set_get_noop (sig : List N) (a : Attrs N V) (hs : sig.Nodup) :
    setParams a (getParams sig a) = a := by
  funext n
  have hx := C16_set_exact a (getParams sig a) (getParams_nodup sig a hs) n
  by_cases h : n ∈ (getParams sig a).map Prod.fst
  · rw [List.mem_map] at h
    obtain ⟨⟨n', v⟩, hm, rfl⟩ := h
    have := (getParams_mem sig a n' v).1 hm
    rw [hx.1 v hm (by simp [this.2]), this.2]
  · exact hx.2.1 h

/-- C16 (set then get): for a stored constructor parameter, `get_params` after `set_params` shows the new value;
a second `set_params` with other names does not disturb it. -/
theorem C16_get_after_set (sig : List N) (a : Attrs N V) (kw kw' : List (N × V))
    (hk : (kw.map Prod.fst).Nodup) (n : N) (v : V) (hn : n ∈ sig) (hs : (a n).isSome)
    (hm : (n, v) ∈ kw) (hd : n ∉ kw'.map Prod.fst) :
    ∀ w, (n, w) ∈ getParams sig (setParams (setParams a kw) kw') ↔ w = v := by
  intro w
  rw [getParams_mem, setParams_not_mem _ _ _ hd, (C16_set_exact a kw hk n).1 v hm hs]
  simp only [hn, true_and, Option.some.injEq]
  exact eq_comm

/-! ### Training values and cloning -/

/-- C16 (frozen dictionary): whatever sequence of `set_params` calls is made, a class that trains from the
dictionary built in its constructor keeps training with the constructor's values. -/
theorem C16_frozen_training (c : Cls N V) (hc : c.frozenDict = true) (kw : List (N × V)) (ob : Obj N V)
    (h : construct c kw = .ok ob) (calls : List (List (N × V))) (n : N) :
    trainValue c (calls.foldl Obj.setParams ob) n = some ((kw.lookup n).getD (c.default n)) := by
  have hf : ∀ (l : List (List (N × V))) (ob' : Obj N V), (l.foldl Obj.setParams ob').frozen = ob'.frozen := by
    intro l
    induction l with
    | nil => intro _; rfl
    | cons k l ih => intro ob'; simp only [List.foldl_cons]; rw [ih]; rfl
  simp only [trainValue, hc, if_true, hf]
  unfold construct at h
  split at h
  · cases h; rfl
  · cases h

/-- C16 (live training): a class that reads its attributes when fitting trains with the values last set. -/
theorem C16_live_training (c : Cls N V) (hc : c.frozenDict = false) (ob : Obj N V) (kw : List (N × V))
    (hk : (kw.map Prod.fst).Nodup) (n : N) (v : V) (hs : (ob.attrs n).isSome) (hm : (n, v) ∈ kw) :
    trainValue c (ob.setParams kw) n = some v := by
  simp only [trainValue, hc, Bool.false_eq_true, if_false, Obj.setParams]
  exact (C16_set_exact ob.attrs kw hk n).1 v hm hs

theorem lookup_getParams (sig : List N) (a : Attrs N V) (n : N) :
    (getParams sig a).lookup n = if n ∈ sig then a n else none := by
  induction sig with
  | nil => simp [getParams]
  | cons k sig ih =>
    simp only [getParams, List.filterMap_cons] at ih ⊢
    by_cases hk : n = k
    · subst hk
      cases h : a n with
      | none =>
        simp only [Option.map_none]
        rw [ih, h]; simp
      | some v => simp
    · cases h : a k with
      | none => simp only [Option.map_none]; rw [ih]; simp [hk]
      | some v =>
        have hb : (n == k) = false := by simpa using hk
        simp only [Option.map_some, List.lookup_cons, hb]
        rw [ih]; simp [hk]

/-- C77 (clone, exact): cloning (as cross validation does for every fold) succeeds whenever every signature name
that is an attribute is accepted by the constructor. The clone then receives the attribute's current value for the
signature names that are attributes, and **the default** for every other parameter, whatever the original was
constructed with. -/
theorem C77_clone_exact (c : Cls N V) (ob : Obj N V)
    (hacc : ∀ n ∈ c.sig, (ob.attrs n).isSome → n ∈ c.accepted) :
    ∃ ob', clone c ob = .ok ob' ∧
      ∀ n, ob'.received n = if n ∈ c.sig then (ob.attrs n).getD (c.default n) else c.default n := by
  have h : (getParams c.sig ob.attrs).all (fun p => decide (p.1 ∈ c.accepted)) = true := by
    rw [List.all_eq_true]
    rintro ⟨n, v⟩ hm
    have := (getParams_mem _ _ _ _).1 hm
    simpa using hacc n this.1 (by simp [this.2])
  refine ⟨_, by simp only [clone, construct, h, if_true]; rfl, ?_⟩
  intro n
  simp only [lookup_getParams]
  split <;> rfl

/-- C77 (what survives): for an object just constructed with arguments `kw`, a parameter keeps its value in the
clone if it is a signature name stored as an attribute; it is reset to its default if it is not, so it survives
only when it was given the default value. -/
theorem C77_clone_keeps_iff (c : Cls N V) (kw : List (N × V)) (ob : Obj N V) (h : construct c kw = .ok ob)
    (hacc : ∀ n ∈ c.sig, c.stored n → n ∈ c.accepted) (n : N) :
    ∃ ob', clone c ob = .ok ob' ∧
      (ob'.received n = ob.received n ↔
        (n ∈ c.sig ∧ c.stored n = true) ∨ ob.received n = c.default n) := by
  have hob : ob.attrs = fun n => if c.stored n then some (ob.received n) else none := by
    unfold construct at h
    split at h
    · cases h; rfl
    · cases h
  obtain ⟨ob', hc, hr⟩ := C77_clone_exact c ob (by
    intro m hm hs
    refine hacc m hm ?_
    rw [hob] at hs
    by_cases hst : c.stored m = true
    · exact hst
    · simp [hst] at hs)
  refine ⟨ob', hc, ?_⟩
  rw [hr, hob]
  by_cases h1 : n ∈ c.sig <;> by_cases h2 : c.stored n = true <;> simp [h1, h2, eq_comm]

/-- C77 (hyper-parameter trial): a trial whose names are stored signature names is accepted, and the clones used by
a full cross validation are trained with the trial's values, also when the class freezes its training
dictionary; the object itself, which is what `cv_type='random_fold'` fits, is then still trained with the
values it was constructed with. -/
theorem C77_trial (c : Cls N V) (kw₀ : List (N × V)) (ob : Obj N V) (h : construct c kw₀ = .ok ob)
    (hacc : ∀ n ∈ c.sig, c.stored n → n ∈ c.accepted) (hc : c.frozenDict = true)
    (kw : List (N × V)) (hk : (kw.map Prod.fst).Nodup) (hn : ∀ p ∈ kw, p.1 ∈ c.sig ∧ c.stored p.1 = true) :
    ∃ ob₁ ob₂, applyTrial c ob kw = .ok ob₁ ∧ clone c ob₁ = .ok ob₂ ∧
      ∀ n v, (n, v) ∈ kw → trainValue c ob₂ n = some v ∧ trainValue c ob₁ n = some (ob.received n) := by
  have hob : ob.attrs = (fun n => if c.stored n then some (ob.received n) else none) ∧ ob.frozen = ob.received := by
    unfold construct at h
    split at h
    · cases h; exact ⟨rfl, rfl⟩
    · cases h
  have hsome : ∀ m, ((ob.setParams kw).attrs m).isSome = c.stored m := by
    intro m
    simp only [Obj.setParams, setParams_isSome, hob.1]
    by_cases hst : c.stored m = true <;> simp [hst]
  obtain ⟨ob₂, hc2, hr⟩ := C77_clone_exact c (ob.setParams kw) (by
    intro m hm hs
    rw [hsome] at hs
    exact hacc m hm hs)
  have hfr : ob₂.frozen = ob₂.received := by
    unfold clone construct at hc2
    split at hc2
    · cases hc2; rfl
    · cases hc2
  refine ⟨ob.setParams kw, ob₂, ?_, hc2, ?_⟩
  · unfold applyTrial
    rw [if_pos]
    rw [List.all_eq_true]
    intro p hp
    simpa using Or.inl (hn p hp).1
  · intro n v hm
    have h1 := hn _ hm
    refine ⟨?_, ?_⟩
    · simp only [trainValue, hc, if_true, hfr, hr, h1.1]
      have hs : (ob.attrs n).isSome := by simp [hob.1, h1.2]
      simp only [Obj.setParams, (C16_set_exact ob.attrs kw hk n).1 v hm hs, Option.getD_some]
    · simp only [trainValue, hc, if_true, Obj.setParams, hob.2]

/-- C77 (no-op trial): names in the signature that are not attributes pass the guard of `optuna_objective`, yet
setting them changes nothing, in the object or in its clones. -/
theorem C77_unstored_trial_ignored (c : Cls N V) (ob : Obj N V) (kw : List (N × V))
    (hn : ∀ p ∈ kw, p.1 ∈ c.sig ∧ ob.attrs p.1 = none) :
    ∃ ob₁, applyTrial c ob kw = .ok ob₁ ∧ ob₁ = ob := by
  refine ⟨ob.setParams kw, ?_, ?_⟩
  · unfold applyTrial
    rw [if_pos]
    rw [List.all_eq_true]
    intro p hp
    simpa using Or.inl (hn p hp).1
  · have : setParams ob.attrs kw = ob.attrs := by
      induction kw with
      | nil => rfl
      | cons p kw ih =>
        obtain ⟨k, v⟩ := p
        have h := (hn (k, v) List.mem_cons_self).2
        simp only at h
        simp only [setParams, h, Option.isSome_none, Bool.false_eq_true, if_false]
        exact ih (fun q hq => hn q (List.mem_cons_of_mem _ hq))
    simp [Obj.setParams, this]

/-! ### Concrete classes -/

/-- `LinearForecaster`, forecaster.py L325-331: `nodes_at_step` is handed to the scenario generator only, and the
further keywords of `ScenarioGenerator.__init__` (L57-61) come in through `**scengen_kwgs`. Values are numbers. -/
def linearCls : Cls String Nat where
  sig := ["q_vect", "val_ratio", "nodes_at_step", "kind", "max_scengen_rows", "scengen_random_state", "scengen_kwgs"]
  accepted := ["q_vect", "val_ratio", "nodes_at_step", "kind", "max_scengen_rows", "scengen_random_state",
    "logger", "n_scen_fit", "additional_node", "formatter", "conditional_to_hour", "copula_type", "tree_type"]
  default n := if n = "conditional_to_hour" then 1 else if n = "n_scen_fit" then 100 else 0
  stored n := decide (n ∈ ["q_vect", "val_ratio", "kind", "max_scengen_rows", "scengen_random_state",
    "logger", "n_scen_fit", "additional_node", "formatter", "conditional_to_hour"])
  frozenDict := false

/-- `LGBForecaster`, forecaster.py L358-386, some of its parameters. -/
def lgbCls : Cls String Nat where
  sig := ["n_estimators", "num_leaves", "learning_rate", "q_vect", "val_ratio", "nodes_at_step",
    "max_scengen_rows", "scengen_random_state", "scengen_kwgs"]
  accepted := ["n_estimators", "num_leaves", "learning_rate", "q_vect", "val_ratio", "nodes_at_step",
    "max_scengen_rows", "scengen_random_state", "n_scen_fit", "conditional_to_hour"]
  default n := if n = "conditional_to_hour" then 1 else if n = "n_estimators" then 100 else 0
  stored n := decide (n ∈ ["n_estimators", "num_leaves", "learning_rate", "q_vect", "val_ratio",
    "max_scengen_rows", "scengen_random_state", "n_scen_fit", "conditional_to_hour"])
  frozenDict := true

/-- A `LinearForecaster(kind=3, nodes_at_step=7, conditional_to_hour=0)` and its clone: `kind` survives, the tree
shape and the unconditional error distribution do not. -/
example : ∃ ob ob', construct linearCls [("kind", 3), ("nodes_at_step", 7), ("conditional_to_hour", 0)] = .ok ob ∧
    clone linearCls ob = .ok ob' ∧ ob'.received "kind" = 3 ∧
    ob.received "nodes_at_step" = 7 ∧ ob'.received "nodes_at_step" = 0 ∧
    ob.received "conditional_to_hour" = 0 ∧ ob'.received "conditional_to_hour" = 1 := by
  refine ⟨_, _, rfl, rfl, ?_⟩
  decide

/-- The hypotheses of `C77_clone_keeps_iff` hold for these classes. -/
example : ∀ n ∈ linearCls.sig, linearCls.stored n → n ∈ linearCls.accepted := by decide
example : ∀ n ∈ lgbCls.sig, lgbCls.stored n → n ∈ lgbCls.accepted := by decide

/-- A trial `n_estimators=250` on an `LGBForecaster()`: the object still trains 100 trees, its clone 250. -/
example : ∃ ob ob₁ ob₂, construct lgbCls [] = .ok ob ∧ applyTrial lgbCls ob [("n_estimators", 250)] = .ok ob₁ ∧
    clone lgbCls ob₁ = .ok ob₂ ∧ trainValue lgbCls ob₁ "n_estimators" = some 100 ∧
    trainValue lgbCls ob₂ "n_estimators" = some 250 := by
  refine ⟨_, _, _, rfl, rfl, rfl, ?_⟩
  decide

/-- `nodes_at_step` passes the guard and is ignored. -/
example : ∃ ob, construct lgbCls [("nodes_at_step", 4)] = .ok ob ∧
    ("nodes_at_step" ∈ lgbCls.sig ∧ ob.attrs "nodes_at_step" = none) := by
  refine ⟨_, rfl, ?_⟩
  decide

end PyF.Params
