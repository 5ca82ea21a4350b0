import Verif.SaveLoad.Model

namespace PyF.SaveLoad

open PyF

variable {V : Type}

theorem lookup_filter_ne (l : List (Name × V)) (k j : Name) (h : j ≠ k) : (l.filter (fun e => e.1 ≠ k)).lookup j = l.lookup j := by
  induction l with
  | nil => rfl
  | cons e l ih =>
    obtain ⟨a, v⟩ := e
    by_cases ha : a = k
    · subst ha
      simp only [ne_eq, not_true_eq_false, decide_false, Bool.false_eq_true, not_false_eq_true, List.filter_cons_of_neg, List.lookup_cons]
      rw [show (j == a) = false by simpa using h]
      exact ih
    · rw [List.filter_cons_of_pos (by simpa using ha)]
      simp only [List.lookup_cons]
      cases j == a with
      | true => rfl
      | false => exact ih

theorem getattr_set_same (o : Obj V) (k : Name) (v : V) : getattr (setattr o k v) k = .ok v := by
  simp [getattr, setattr]

theorem getattr_set_ne (o : Obj V) (k j : Name) (v : V) (h : j ≠ k) : getattr (setattr o k v) j = getattr o j := by
  unfold getattr setattr
  simp only [List.lookup_cons]
  rw [show (j == k) = false by simpa using h]
  simp only
  rw [lookup_filter_ne _ _ _ h]

theorem getattr_setAttrs_not_mem (d : List (Name × V)) (o : Obj V) (k : Name) (h : k ∉ d.map Prod.fst) : getattr (setAttrs o d) k = getattr o k := by
  induction d generalizing o with
  | nil => rfl
  | cons e d ih =>
    simp only [List.map_cons, List.mem_cons, not_or] at h
    show getattr (setAttrs (setattr o e.1 e.2) d) k = _
    rw [ih _ h.2, getattr_set_ne _ _ _ _ h.1]

theorem getattr_setAttrs_mem (d : List (Name × V)) (hd : (d.map Prod.fst).Nodup) (o : Obj V) (k : Name) (v : V) (h : (k, v) ∈ d) :
    getattr (setAttrs o d) k = .ok v := by
  induction d generalizing o with
  | nil => cases h
  | cons e d ih =>
    simp only [List.map_cons, List.nodup_cons] at hd
    show getattr (setAttrs (setattr o e.1 e.2) d) k = _
    rcases List.mem_cons.1 h with rfl | h
    · rw [getattr_setAttrs_not_mem _ _ _ hd.1, getattr_set_same]
    · exact ih hd.2 _ h

/-- Setting the same keys on objects that agree elsewhere gives objects that agree everywhere on these keys. -/
theorem getattr_setAttrs_congr (d : List (Name × V)) (o o' : Obj V) (k : Name) (h : k ∈ d.map Prod.fst) : getattr (setAttrs o d) k = getattr (setAttrs o' d) k := by
  induction d generalizing o o' with
  | nil => simp at h
  | cons e d ih =>
    show getattr (setAttrs (setattr o e.1 e.2) d) k = getattr (setAttrs (setattr o' e.1 e.2) d) k
    by_cases hk : k ∈ d.map Prod.fst
    · exact ih _ _ hk
    · have : k = e.1 := by
        rw [List.map_cons] at h
        rcases List.mem_cons.1 h with h | h
        · exact h
        · exact absurd h hk
      subst this
      rw [getattr_setAttrs_not_mem _ _ _ hk, getattr_setAttrs_not_mem _ _ _ hk, getattr_set_same, getattr_set_same]

theorem mem_classNames (w : World V) (o : Obj V) (k : Name) : k ∈ classNames w o ↔ ∃ c ∈ o.mro, ∃ v, (k, v) ∈ c ∧ w.hidden v = false ∧ dunder k = false := by
  unfold classNames
  rw [List.mem_dedup, List.mem_map]
  constructor
  · rintro ⟨⟨a, v⟩, h, rfl⟩
    rw [List.mem_filter, List.mem_flatten] at h
    obtain ⟨⟨c, hc, hm⟩, hp⟩ := h
    simp only [Bool.and_eq_true, Bool.not_eq_true'] at hp
    exact ⟨c, hc, v, hm, hp⟩
  · rintro ⟨c, hc, v, hm, hp⟩
    refine ⟨(k, v), ?_, rfl⟩
    rw [List.mem_filter, List.mem_flatten]
    exact ⟨⟨c, hc, hm⟩, by simp [hp]⟩

theorem lookup_of_mem (l : List (Name × V)) (k : Name) (v : V) (h : (k, v) ∈ l) : ∃ u, l.lookup k = some u := by
  induction l with
  | nil => cases h
  | cons e l ih =>
    obtain ⟨a, u⟩ := e
    simp only [List.lookup_cons]
    by_cases hk : k = a
    · subst hk; exact ⟨u, by simp⟩
    · rw [show (k == a) = false by simpa using hk]
      rcases List.mem_cons.1 h with h | h
      · cases h; exact absurd rfl hk
      · exact ih h

/-- Every class-level name can be read. -/
theorem getattr_class (w : World V) (o : Obj V) (k : Name) (h : k ∈ classNames w o) : ∃ v, getattr o k = .ok v := by
  obtain ⟨c, hc, v, hm, _⟩ := (mem_classNames w o k).1 h
  unfold getattr
  cases o.inst.lookup k with
  | some u => exact ⟨u, rfl⟩
  | none =>
    obtain ⟨u, hu⟩ := lookup_of_mem o.mro.flatten k v (List.mem_flatten.2 ⟨c, hc, hm⟩)
    rw [hu]
    exact ⟨u, rfl⟩

theorem entry_fst (w : World V) (o : Obj V) (k : Name) (e : Name × V) (h : entry w o k = some e) : e.1 = k := by
  unfold entry at h
  by_cases hk : k ∈ excludes
  · rw [if_pos hk] at h; cases h
  · rw [if_neg hk] at h
    cases hg : getattr o k with
    | error _ => rw [hg] at h; cases h
    | ok v =>
      rw [hg] at h
      simp only at h
      cases hc : w.copy v with
      | none => rw [hc] at h; cases h
      | some c => rw [hc] at h; cases h; rfl

theorem save_nodup (w : World V) (o : Obj V) : ((save w o).map Prod.fst).Nodup := by
  unfold save
  have hn : (classNames w o).Nodup := List.nodup_dedup _
  have : ∀ l : List Name, l.Nodup → (((l.filterMap (entry w o)).map Prod.fst).Nodup ∧ ∀ k ∈ (l.filterMap (entry w o)).map Prod.fst, k ∈ l) := by
    intro l
    induction l with
    | nil => intro _; simp
    | cons k l ih =>
      intro hl
      rw [List.nodup_cons] at hl
      obtain ⟨h1, h2⟩ := ih hl.2
      cases he : entry w o k with
      | none =>
        rw [List.filterMap_cons_none he]
        exact ⟨h1, fun j hj => List.mem_cons_of_mem _ (h2 j hj)⟩
      | some e =>
        rw [List.filterMap_cons_some he, List.map_cons, entry_fst w o k e he, List.nodup_cons]
        refine ⟨⟨fun h => hl.1 (h2 k h), h1⟩, ?_⟩
        intro j hj
        rcases List.mem_cons.1 hj with rfl | hj
        · exact List.mem_cons_self
        · exact List.mem_cons_of_mem _ (h2 j hj)
  exact (this _ hn).1

/-- **C69.** What is written: the copy of the current value of every name with a visible class-level value in some class, unless the name is one of the
runtime objects or the value cannot be pickled. -/
theorem C69_saved_iff (w : World V) (o : Obj V) (k : Name) (c : V) :
    (k, c) ∈ save w o ↔ (∃ cd ∈ o.mro, ∃ v, (k, v) ∈ cd ∧ w.hidden v = false ∧ dunder k = false) ∧ k ∉ excludes ∧ ∃ v, getattr o k = .ok v ∧ w.copy v = some c := by
  unfold save
  rw [List.mem_filterMap]
  constructor
  · rintro ⟨j, hj, he⟩
    have hf := entry_fst w o j _ he
    simp only at hf
    subst hf
    refine ⟨(mem_classNames w o k).1 hj, ?_⟩
    unfold entry at he
    by_cases hk : k ∈ excludes
    · rw [if_pos hk] at he; cases he
    · rw [if_neg hk] at he
      refine ⟨hk, ?_⟩
      cases hg : getattr o k with
      | error _ => rw [hg] at he; cases he
      | ok v =>
        rw [hg] at he
        simp only at he
        cases hc : w.copy v with
        | none => rw [hc] at he; cases he
        | some c' => rw [hc] at he; cases he; exact ⟨v, rfl, hc⟩
  · rintro ⟨hm, hk, v, hg, hc⟩
    refine ⟨k, (mem_classNames w o k).2 hm, ?_⟩
    unfold entry
    rw [if_neg hk, hg]
    simp only
    rw [hc]

theorem saved_not_runtime (w : World V) (o : Obj V) (k : Name) (c : V) (h : (k, c) ∈ save w o) : k ∉ runtimeNames := by
  have h2 := ((C69_saved_iff w o k c).1 h).2.1
  intro hr
  apply h2
  revert k
  intro k _ _ hr
  have : ∀ n ∈ runtimeNames, n ∈ excludes := by decide
  exact this k hr

theorem keys_nil (w : World V) : ((runtimeNames.map (fun k => (k, w.nil))).map Prod.fst) = runtimeNames := by
  rw [List.map_map]
  exact List.map_id _

/-- **C69.** An object constructed with the file has every saved attribute, whatever the constructor arguments. -/
theorem C69_restored (w : World V) (o base : Obj V) (args : List (Name × V)) (arch : Obj V → List (Name × V)) (harch : ∀ q, ∀ k ∈ (arch q).map Prod.fst, k ∈ excludes)
    (k : Name) (c : V) (h : (k, c) ∈ save w o) : getattr (nnInit w base args (some (save w o)) arch) k = .ok c := by
  have hx := ((C69_saved_iff w o k c).1 h).2.1
  unfold nnInit
  simp only
  rw [getattr_setAttrs_not_mem _ _ _ (fun hm => hx (harch _ k hm)), getattr_setAttrs_not_mem _ _ _ (by rw [keys_nil]; exact saved_not_runtime w o k c h)]
  exact getattr_setAttrs_mem _ (save_nodup w o) _ _ _ h

/-- **C69.** Every attribute that is neither saved nor set by the constructor's arguments nor a runtime object is the one of the fresh object: it is lost. -/
theorem C69_lost (w : World V) (o base : Obj V) (args : List (Name × V)) (arch : Obj V → List (Name × V)) (harch : ∀ q, ∀ k ∈ (arch q).map Prod.fst, k ∈ excludes)
    (k : Name) (hs : k ∉ (save w o).map Prod.fst) (ha : k ∉ args.map Prod.fst) (hx : k ∉ excludes) :
    getattr (nnInit w base args (some (save w o)) arch) k = getattr base k := by
  have hr : k ∉ runtimeNames := by
    intro hr
    have : ∀ n ∈ runtimeNames, n ∈ excludes := by decide
    exact hx (this k hr)
  unfold nnInit
  simp only
  rw [getattr_setAttrs_not_mem _ _ _ (fun hm => hx (harch _ k hm)), getattr_setAttrs_not_mem _ _ _ (by rw [keys_nil]; exact hr), getattr_setAttrs_not_mem _ _ _ hs,
    getattr_setAttrs_not_mem _ _ _ ha]

/-- A computation only looks at the given attributes. -/
def ReadsOnly {R : Type} (names : List Name) (run : Obj V → R) : Prop := ∀ o o', (∀ k ∈ names, getattr o k = getattr o' k) → run o = run o'

/-- The runtime objects of an object are those its architecture prescribes. -/
def Built (arch : Obj V → List (Name × V)) (o : Obj V) : Prop := ∀ k v, (k, v) ∈ arch o → getattr o k = .ok v

/-- **C69.** Reloading: if the architecture and the computation only look at attributes that are saved faithfully (or are runtime objects set by the
architecture), the reloaded object computes the same. -/
theorem C69_reload {R : Type} (w : World V) (o base : Obj V) (args : List (Name × V)) (arch : Obj V → List (Name × V)) (sets areads reads : List Name)
    (hsets : ∀ q, (arch q).map Prod.fst = sets) (hnd : sets.Nodup) (hsx : ∀ k ∈ sets, k ∈ excludes)
    (hb : Built arch o) (ha : ReadsOnly areads arch) (run : Obj V → R) (hr : ReadsOnly reads run)
    (hareads : ∀ k ∈ areads, ∃ v, getattr o k = .ok v ∧ (k, v) ∈ save w o)
    (hreads : ∀ k ∈ reads, k ∈ sets ∨ ∃ v, getattr o k = .ok v ∧ (k, v) ∈ save w o) :
    run (nnInit w base args (some (save w o)) arch) = run o := by
  have harch : ∀ q, ∀ k ∈ (arch q).map Prod.fst, k ∈ excludes := by intro q k hk; rw [hsets] at hk; exact hsx k hk
  have hrest : ∀ k v, getattr o k = .ok v → (k, v) ∈ save w o → getattr (nnInit w base args (some (save w o)) arch) k = getattr o k := by
    intro k v h1 h2
    rw [h1]
    exact C69_restored w o base args arch harch k v h2
  apply hr
  intro k hk
  rcases hreads k hk with hk | ⟨v, h1, h2⟩
  · have heq : arch (setAttrs (setAttrs (setAttrs base args) (save w o)) (runtimeNames.map (fun k => (k, w.nil)))) = arch o := by
      apply ha
      intro j hj
      obtain ⟨v, h1, h2⟩ := hareads j hj
      rw [getattr_setAttrs_not_mem _ _ _ (by rw [keys_nil]; exact saved_not_runtime w o j v h2), getattr_setAttrs_mem _ (save_nodup w o) _ _ _ h2, h1]
    show getattr (setAttrs _ (arch _)) k = _
    rw [heq]
    have hko : k ∈ (arch o).map Prod.fst := by rw [hsets]; exact hk
    obtain ⟨⟨a, v⟩, hm, rfl⟩ := List.mem_map.1 hko
    rw [getattr_setAttrs_mem _ (by rw [hsets]; exact hnd) _ _ _ hm, hb _ _ hm]
  · exact hrest k v h1 h2

/-! ### The networks of the package -/

/-- An object of one of the networks: every declared name has a visible class-level value. -/
def OfKind (w : World V) (kd : Kind) (o : Obj V) : Prop := ∀ k ∈ declared kd, ∃ cd ∈ o.mro, ∃ v, (k, v) ∈ cd ∧ w.hidden v = false

theorem declared_ok : ∀ kd, ∀ k ∈ declared kd, dunder k = false ∧ k ∉ excludes := by
  intro kd
  cases kd <;> decide

theorem saved_of_declared (w : World V) (kd : Kind) (o : Obj V) (ho : OfKind w kd o) (k : Name) (hk : k ∈ declared kd)
    (hp : ∀ v, getattr o k = .ok v → w.copy v = some v) : ∃ v, getattr o k = .ok v ∧ (k, v) ∈ save w o := by
  obtain ⟨cd, hcd, u, hm, hv⟩ := ho k hk
  obtain ⟨hd, hx⟩ := declared_ok kd k hk
  obtain ⟨v, hg⟩ := getattr_class w o k ((mem_classNames w o k).2 ⟨cd, hcd, u, hm, hv, hd⟩)
  exact ⟨v, hg, (C69_saved_iff w o k v).2 ⟨⟨cd, hcd, u, hm, hv, hd⟩, hx, v, hg, hp v hg⟩⟩

theorem kind_reads : ∀ kd, kd ≠ .latent → (∀ k ∈ archReads kd, k ∈ declared kd) ∧ (∀ k ∈ predictReads kd, k ∈ archSets kd ∨ k ∈ declared kd) := by
  intro kd
  cases kd <;> decide

theorem kind_sets : ∀ kd, (archSets kd).Nodup ∧ ∀ k ∈ archSets kd, k ∈ excludes := by
  intro kd
  cases kd <;> decide

/-- **C69.** For every network except the latent one: an object constructed with only the path of the file of a trained one predicts the same on every input,
provided pickling is faithful on the attributes that `set_arch` and `predict` look at. -/
theorem C69_networks {R : Type} (w : World V) (kd : Kind) (hkd : kd ≠ .latent) (o base : Obj V) (args : List (Name × V)) (arch : Obj V → List (Name × V))
    (ho : OfKind w kd o) (hsets : ∀ q, (arch q).map Prod.fst = archSets kd) (hb : Built arch o) (ha : ReadsOnly (archReads kd) arch)
    (predict : Obj V → R) (hr : ReadsOnly (predictReads kd) predict)
    (hp : ∀ k, k ∈ archReads kd ∨ k ∈ predictReads kd → ∀ v, getattr o k = .ok v → w.copy v = some v ∨ k ∈ archSets kd) :
    predict (nnInit w base args (some (save w o)) arch) = predict o := by
  obtain ⟨h1, h2⟩ := kind_reads kd hkd
  obtain ⟨h3, h4⟩ := kind_sets kd
  have hnx : ∀ k ∈ declared kd, k ∉ archSets kd := fun k hk hs => (declared_ok kd k hk).2 (h4 k hs)
  refine C69_reload w o base args arch (archSets kd) (archReads kd) (predictReads kd) hsets h3 h4 hb ha predict hr ?_ ?_
  · intro k hk
    refine saved_of_declared w kd o ho k (h1 k hk) ?_
    intro v hv
    exact (hp k (Or.inl hk) v hv).resolve_right (hnx k (h1 k hk))
  · intro k hk
    rcases h2 k hk with h | h
    · exact Or.inl h
    · right
      refine saved_of_declared w kd o ho k h ?_
      intro v hv
      exact (hp k (Or.inr hk) v hv).resolve_right (hnx k h)

/-! ### What is lost -/

/-- **C121.** Defect: the number of encoder layers of the latent network is not saved: the reloaded network has the one of the constructor call. -/
theorem C121_latent_layers (w : World V) (o base : Obj V) (args : List (Name × V)) (arch : Obj V → List (Name × V)) (k : Name)
    (hk : k = "n_encoder_layers".toList ∨ k = "n_decoder_layers".toList)
    (harch : ∀ q, ∀ k ∈ (arch q).map Prod.fst, k ∈ excludes) (hcls : ∀ cd ∈ o.mro, k ∉ cd.map Prod.fst) (ha : k ∉ args.map Prod.fst) :
    getattr (nnInit w base args (some (save w o)) arch) k = getattr base k := by
  refine C69_lost w o base args arch harch k ?_ ha ?_
  · intro hm
    obtain ⟨⟨a, c⟩, hm', rfl⟩ := List.mem_map.1 hm
    obtain ⟨cd, hcd, v, hv, _⟩ := ((C69_saved_iff w o a c).1 hm').1
    exact hcls cd hcd (List.mem_map.2 ⟨(a, v), hv, rfl⟩)
  · rcases hk with rfl | rfl <;> decide

/-- The latent network's layer counts are read by its `set_arch` but are not class-level names. -/
theorem C121_read_not_declared : ∀ k, k = "n_encoder_layers".toList ∨ k = "n_decoder_layers".toList → k ∈ archReads .latent ∧ k ∉ declared .latent := by
  rintro k (rfl | rfl) <;> decide

/-- **C121.** All other attributes read by the latent network are saved. -/
theorem C121_only_these : (∀ k ∈ archReads .latent, k ∈ declared .latent ∨ k = "n_encoder_layers".toList ∨ k = "n_decoder_layers".toList) ∧
    ∀ k ∈ predictReads .latent, k ∈ archSets .latent ∨ k ∈ declared .latent := by
  decide

/-- **C122.** Without a probabilistic output `predict_quantiles` works exactly when every hour of the input was in the calibration data. -/
theorem C122_hours {R : Type} (d : List (ℕ × R)) (hs : List ℕ) : (∃ r, addResiduals d hs = .ok r) ↔ ∀ h ∈ hs, ∃ r, d.lookup h = some r := by
  induction hs with
  | nil => simp [addResiduals]
  | cons h hs ih =>
    rw [List.forall_mem_cons, ← ih, addResiduals]
    cases hd : d.lookup h with
    | none => simp
    | some r =>
      cases ht : addResiduals d hs with
      | error e => simp
      | ok rs => simp

/-- **C122.** Defect: the residual quantiles are not class-level, so a reloaded network has the empty ones of the fresh object; without a probabilistic
output `predict_quantiles` then raises KeyError on every non-empty input. -/
theorem C122_quantiles_after_reload {R : Type} (w : World V) (o base : Obj V) (args : List (Name × V)) (arch : Obj V → List (Name × V))
    (harch : ∀ q, ∀ k ∈ (arch q).map Prod.fst, k ∈ excludes) (hcls : ∀ cd ∈ o.mro, "err_distr".toList ∉ cd.map Prod.fst) (ha : "err_distr".toList ∉ args.map Prod.fst)
    (decode : V → List (ℕ × R)) (empty : V) (hempty : decode empty = []) (hbase : getattr base "err_distr".toList = .ok empty) (hours : List ℕ) (hh : hours ≠ []) :
    ∃ v, getattr (nnInit w base args (some (save w o)) arch) "err_distr".toList = .ok v ∧ addResiduals (decode v) hours = .error .keyError := by
  refine ⟨empty, ?_, ?_⟩
  · rw [← hbase]
    refine C69_lost w o base args arch harch "err_distr".toList ?_ ha (by decide)
    intro hm
    obtain ⟨⟨a, c⟩, hm, hac⟩ := List.mem_map.1 hm
    simp only at hac
    subst hac
    obtain ⟨cd, hcd, v, hv, _⟩ := ((C69_saved_iff w o _ c).1 hm).1
    exact hcls cd hcd (List.mem_map.2 ⟨("err_distr".toList, v), hv, rfl⟩)
  · rw [hempty]
    cases hours with
    | nil => exact absurd rfl hh
    | cons h hs => rfl

theorem inverter_rate_aux (w : World V) (o base : Obj V) (own args : List (Name × V)) (mk : V → V) (arch : Obj V → List (Name × V))
    (harch : ∀ q, ∀ k ∈ (arch q).map Prod.fst, k ∈ excludes ∧ k ≠ sInvOpt) (hown : (own.map Prod.fst).Nodup) (r rs : V) (hr : (sRate, r) ∈ own)
    (hs : (sRate, rs) ∈ save w o) (hargs : sInvOpt ∉ args.map Prod.fst) :
    ∃ q, picnnInit w base own args mk (some (save w o)) arch = .ok q ∧ getattr q sRate = .ok rs ∧ getattr q sInvOpt = .ok (mk r) := by
  unfold picnnInit
  simp only
  rw [getattr_setAttrs_mem own hown _ _ _ hr]
  refine ⟨_, rfl, ?_, ?_⟩
  · exact C69_restored w o _ args arch (fun q k hk => (harch q k hk).1) sRate rs hs
  · unfold nnInit
    simp only
    rw [getattr_setAttrs_not_mem _ _ _ (fun hm => (harch _ _ hm).2 rfl), getattr_setAttrs_not_mem _ _ _ (by rw [keys_nil]; decide), getattr_setAttrs_not_mem, getattr_setAttrs_not_mem _ _ _ hargs,
      getattr_set_same]
    intro hm
    obtain ⟨⟨a, c⟩, hm, hac⟩ := List.mem_map.1 hm
    simp only at hac
    subst hac
    exact ((C69_saved_iff w o _ c).1 hm).2.1 (by decide)

/-- **C123.** Defect: a reloaded convex network has the saved inverter learning rate, but the optimiser of `optimize` was built with the rate of the
constructor call. -/
theorem C123_inverter_rate (w : World V) (o base : Obj V) (own args : List (Name × V)) (mk : V → V) (arch : Obj V → List (Name × V))
    (harch : ∀ q, ∀ k ∈ (arch q).map Prod.fst, k ∈ excludes ∧ k ≠ "inverter_optimizer".toList) (hown : (own.map Prod.fst).Nodup) (r rs : V) (hr : ("inverter_learning_rate".toList, r) ∈ own)
    (hs : ("inverter_learning_rate".toList, rs) ∈ save w o) (hargs : "inverter_optimizer".toList ∉ args.map Prod.fst) :
    ∃ q, picnnInit w base own args mk (some (save w o)) arch = .ok q ∧ getattr q "inverter_learning_rate".toList = .ok rs ∧ getattr q "inverter_optimizer".toList = .ok (mk r) :=
  inverter_rate_aux w o base own args mk arch harch hown r rs hr hs hargs

/-- **C69.** Names of two leading underscores are never written, all others with a visible class-level value are; names with one underscore are. -/
theorem C69_dunder (k : Name) : dunder k = false ↔ ¬ ∃ r, k = '_' :: '_' :: r := by
  unfold dunder
  constructor
  · rintro h ⟨r, rfl⟩
    simp [List.isPrefixOf] at h
  · intro h
    rw [Bool.eq_false_iff]
    intro hp
    rw [List.isPrefixOf_iff_prefix] at hp
    obtain ⟨r, rfl⟩ := hp
    exact h ⟨r, rfl⟩

/-- **C69.** What the constructor does to the runtime objects, loading or not: each of the five is what `set_arch` gives it, and `None` if `set_arch` gives it
nothing, so that nothing of the file or of the arguments remains in them. -/
theorem C69_runtime (w : World V) (base : Obj V) (args : List (Name × V)) (file : Option (List (Name × V))) (arch : Obj V → List (Name × V)) (k : Name)
    (hk : k ∈ ["optimizer".toList, "model".toList, "loss_fn".toList, "train_step".toList, "predict_batch".toList]) (hn : ∀ q, ((arch q).map Prod.fst).Nodup) :
    ∃ q, (∀ v, (k, v) ∈ arch q → getattr (nnInit w base args file arch) k = .ok v) ∧ (k ∉ (arch q).map Prod.fst → getattr (nnInit w base args file arch) k = .ok w.nil) := by
  have hnil : ∀ o : Obj V, getattr (setAttrs o (runtimeNames.map (fun k => (k, w.nil)))) k = .ok w.nil := by
    intro o
    refine getattr_setAttrs_mem _ (by rw [keys_nil]; decide) o k w.nil (List.mem_map.2 ⟨k, hk, rfl⟩)
  unfold nnInit
  simp only
  refine ⟨_, fun v hv => getattr_setAttrs_mem _ (hn _) _ _ _ hv, fun hm => ?_⟩
  rw [getattr_setAttrs_not_mem _ _ _ hm]
  exact hnil _

/-- **C69.** What `set_arch` of the networks sets. -/
theorem C69_arch_sets (kd : Kind) (k : Name) :
    k ∈ archSets kd ↔ k ∈ ["optimizer".toList, "model".toList, "loss_fn".toList, "train_step".toList, "predict_batch".toList] ∨ kd = .latent ∧ k = "predict_batch_training".toList := by
  have key : ∀ l : List Name, (k ∈ "predict_batch_training".toList :: l) ↔ (k ∈ l ∨ Kind.latent = .latent ∧ k = "predict_batch_training".toList) := by
    intro l
    rw [List.mem_cons]
    constructor
    · rintro (h | h)
      · exact .inr ⟨rfl, h⟩
      · exact .inl h
    · rintro (h | ⟨-, h⟩)
      · exact .inr h
      · exact .inl h
  cases kd with
  | latent => exact key _
  | _ => exact ⟨fun h => .inl h, fun h => h.elim id (fun h => by cases h.1)⟩

/-- **C124.** `set_params` changes exactly the given names that the object itself already has; others are silently ignored. -/
theorem C124_set_params (o : Obj V) (kw : List (Name × V)) (hkw : (kw.map Prod.fst).Nodup) (arch : Obj V → List (Name × V)) (harch : ∀ q, ∀ k ∈ (arch q).map Prod.fst, k ∈ excludes)
    (k : Name) (hx : k ∉ excludes) :
    (∀ v, (k, v) ∈ kw → k ∈ o.inst.map Prod.fst → getattr (setParams o kw arch) k = .ok v) ∧
    (k ∉ kw.map Prod.fst ∨ k ∉ o.inst.map Prod.fst → getattr (setParams o kw arch) k = getattr o k) := by
  have key : ∀ (kw : List (Name × V)), (kw.map Prod.fst).Nodup → ∀ q : Obj V,
      (∀ v, (k, v) ∈ kw → k ∈ o.inst.map Prod.fst → getattr (kw.foldl (fun o' e => if e.1 ∈ o.inst.map Prod.fst then setattr o' e.1 e.2 else o') q) k = .ok v) ∧
      (k ∉ kw.map Prod.fst ∨ k ∉ o.inst.map Prod.fst → getattr (kw.foldl (fun o' e => if e.1 ∈ o.inst.map Prod.fst then setattr o' e.1 e.2 else o') q) k = getattr q k) := by
    intro kw
    induction kw with
    | nil => intro _ q; exact ⟨fun v h => (by cases h), fun _ => rfl⟩
    | cons e kw ih =>
      intro hn q
      simp only [List.map_cons, List.nodup_cons] at hn
      obtain ⟨i1, i2⟩ := ih hn.2 (if e.1 ∈ o.inst.map Prod.fst then setattr q e.1 e.2 else q)
      constructor
      · intro v hv hin
        rw [List.foldl_cons]
        rcases List.mem_cons.1 hv with rfl | hv
        · rw [i2 (Or.inl hn.1), if_pos hin, getattr_set_same]
        · exact i1 v hv hin
      · intro h
        rw [List.foldl_cons]
        have h' : k ∉ kw.map Prod.fst ∨ k ∉ o.inst.map Prod.fst := by
          rcases h with h | h
          · simp only [List.map_cons, List.mem_cons, not_or] at h
            exact Or.inl h.2
          · exact Or.inr h
        rw [i2 h']
        by_cases hin : e.1 ∈ o.inst.map Prod.fst
        · rw [if_pos hin]
          refine getattr_set_ne _ _ _ _ ?_
          intro he
          subst he
          rcases h with h | h
          · exact h (by simp)
          · exact h hin
        · rw [if_neg hin]
  obtain ⟨k1, k2⟩ := key kw hkw o
  constructor
  · intro v hv hin
    unfold setParams
    simp only
    rw [getattr_setAttrs_not_mem _ _ _ (fun hm => hx (harch _ k hm))]
    exact k1 v hv hin
  · intro h
    unfold setParams
    simp only
    rw [getattr_setAttrs_not_mem _ _ _ (fun hm => hx (harch _ k hm))]
    exact k2 h

end PyF.SaveLoad
