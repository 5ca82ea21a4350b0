import Verif.ICNN.Model

namespace PyF.ICNN

open PyF

/-! ### Specification: which weights are constrained -/

/-- A place in the parameter dictionary: `params['params'][n][k]` or `params['params'][n][m][k]`. -/
inductive Path
  | two (n k : Name)
  | three (n m k : Name)

/-- The dense layer stored at a place, if any. -/
def get (t : Tree) : Path → Option Dense
  | .two n k =>
    match t.lookup n with
    | some (.layer ps) => ps.lookup k
    | _ => none
  | .three n m k =>
    match t.lookup n with
    | some (.sub ls) =>
      match ls.lookup m with
      | some ps => ps.lookup k
      | none => none
    | _ => none

/-- The weights that must be non-negative: those named `wz` of every layer of the convex part, and those named `wy` when the network is recursively stable,
monotone, or the layer or the module it belongs to has "monotone" in its name. -/
def Constrained (recStable monotone : Bool) : Path → Prop
  | .two n k => "PICNNLayer".toList <:+: n ∧
      (k = "wz".toList ∨ k = "wy".toList ∧ (recStable = true ∨ monotone = true ∨ "monotone".toList <:+: n))
  | .three n m k => "PICNNLayer".toList <:+: n ∧
      (k = "wz".toList ∨ k = "wy".toList ∧ (recStable = true ∨ monotone = true ∨ "monotone".toList <:+: n ∨ "monotone".toList <:+: m))

/-! ### Lemmas -/

theorem constrained_two (rs m : Bool) (n k : Name) : Constrained rs m (.two n k) = (sPicnn <:+: n ∧ (k = sWz ∨ k = sWy ∧ (rs = true ∨ m = true ∨ sMonotone <:+: n))) := rfl

theorem constrained_three (rs m : Bool) (n n' k : Name) :
    Constrained rs m (.three n n' k) = (sPicnn <:+: n ∧ (k = sWz ∨ k = sWy ∧ (rs = true ∨ m = true ∨ sMonotone <:+: n ∨ sMonotone <:+: n'))) := rfl


theorem taut1 (A B R M N : Prop) : (A ∨ B ∧ (R ∨ (M ∨ N) ∨ N)) ↔ (A ∨ B ∧ (R ∨ M ∨ N)) := by tauto

theorem taut2 (A B R M N K : Prop) : (A ∨ B ∧ (R ∨ (M ∨ N) ∨ K)) ↔ (A ∨ B ∧ (R ∨ M ∨ N ∨ K)) := by tauto

theorem taut3 (M N C : Prop) : (N ∨ (M ∨ N) ∨ C) ↔ (N ∨ M ∨ C) := by tauto

theorem contains_iff (s n : Name) : contains s n = true ↔ s <:+: n := by
  unfold contains
  exact decide_eq_true_iff

theorem lookup_modify {α : Type} (key : Name) (f : α → α) (d : List (Name × α)) (k : Name) :
    (modify key f d).lookup k = if k = key then (d.lookup k).map f else d.lookup k := by
  induction d with
  | nil => simp [modify]
  | cons e d ih =>
    obtain ⟨n, v⟩ := e
    simp only [modify, List.map_cons] at ih ⊢
    by_cases hn : n = key
    · simp only [hn, if_true, List.lookup_cons]
      by_cases hk : k = key
      · simp [hk]
      · have hb : (k == key) = false := by simpa using hk
        simp only [hb]
        simpa [modify, hk] using ih
    · simp only [hn, if_false, List.lookup_cons]
      by_cases hk : k = n
      · subst hk
        simp [hn]
      · have hb : (k == n) = false := by simpa using hk
        simp only [hb]
        exact ih

theorem clampD_idem (d : Dense) : clampD (clampD d) = clampD d := by
  simp [clampD]

theorem modify_idem (key : Name) (d : LayerPars) : modify key clampD (modify key clampD d) = modify key clampD d := by
  unfold modify
  rw [List.map_map]
  apply List.map_congr_left
  intro e _
  by_cases h : e.1 = key
  · simp [h, clampD_idem]
  · simp [h]

theorem modify_comm {α : Type} (k1 k2 : Name) (f g : α → α) (h : k1 ≠ k2) (d : List (Name × α)) : modify k1 f (modify k2 g d) = modify k2 g (modify k1 f d) := by
  unfold modify
  rw [List.map_map, List.map_map]
  apply List.map_congr_left
  intro e _
  by_cases h1 : e.1 = k1
  · have h2 : ¬ e.1 = k2 := fun h2 => h (h1.symm.trans h2)
    simp [h1, h]
  · by_cases h2 : e.1 = k2
    · have : ¬ k2 = k1 := fun h3 => h h3.symm
      simp [h2, this]
    · simp [h1, h2]

theorem wz_ne_wy : sWz ≠ sWy := by decide

theorem reprojectLayer_lookup (rs m : Bool) (n : Name) (ps ps' : LayerPars) (h : reprojectLayer rs m n ps = .ok ps') (k : Name) :
    ps'.lookup k = if k = sWz ∨ k = sWy ∧ (rs = true ∨ m = true ∨ sMonotone <:+: n)
      then (ps.lookup k).map clampD else ps.lookup k := by
  have hne := wz_ne_wy
  have hboth : ∀ k : Name, (modify sWy clampD (modify sWz clampD ps)).lookup k
      = if k = sWz ∨ k = sWy then (ps.lookup k).map clampD else ps.lookup k := by
    intro k
    rw [lookup_modify, lookup_modify]
    by_cases h1 : k = sWy
    · have : ¬ k = sWz := fun h2 => hne (h2.symm.trans h1)
      simp [h1, hne.symm]
    · by_cases h2 : k = sWz
      · simp [h2, hne]
      · simp only [h1, h2, if_false, or_self]
  unfold reprojectLayer at h
  by_cases hm : (contains sMonotone n || m) = true
  · rw [if_pos hm] at h
    cases h
    have hm' : m = true ∨ sMonotone <:+: n := by
      simp only [Bool.or_eq_true, contains_iff] at hm
      exact hm.symm
    rw [hboth]
    have : (rs = true ∨ m = true ∨ sMonotone <:+: n) := Or.inr hm'
    simp only [this, and_true]
  · rw [if_neg hm] at h
    have hm' : ¬ (m = true ∨ sMonotone <:+: n) := by
      simp only [Bool.or_eq_true, contains_iff] at hm
      exact fun h => hm h.symm
    cases hz : ps.lookup sWz with
    | none => rw [hz] at h; cases h
    | some d =>
      rw [hz] at h
      simp only at h
      by_cases hrs : rs = true
      · rw [if_pos hrs] at h
        cases hy : ps.lookup sWy with
        | none => rw [hy] at h; cases h
        | some d' =>
          rw [hy] at h
          cases h
          rw [hboth]
          simp only [hrs, true_or, and_true]
      · rw [if_neg hrs] at h
        cases h
        rw [lookup_modify]
        have : ¬ (rs = true ∨ m = true ∨ sMonotone <:+: n) := by
          rintro (h | h)
          · exact hrs h
          · exact hm' h
        simp only [this, and_false, or_false]

theorem reprojectLayer_idem (rs m : Bool) (n : Name) (ps ps' : LayerPars) (h : reprojectLayer rs m n ps = .ok ps') :
    reprojectLayer rs m n ps' = .ok ps' := by
  have hl := reprojectLayer_lookup rs m n ps ps' h
  have hb : ∀ q : LayerPars, modify sWy clampD (modify sWz clampD (modify sWy clampD (modify sWz clampD q)))
      = modify sWy clampD (modify sWz clampD q) := by
    intro q
    rw [modify_comm _ _ _ _ wz_ne_wy, modify_idem, modify_idem]
  unfold reprojectLayer at h ⊢
  by_cases hm : (contains sMonotone n || m) = true
  · rw [if_pos hm] at h ⊢
    cases h
    rw [hb]
  · rw [if_neg hm] at h ⊢
    cases hz : ps.lookup sWz with
    | none => rw [hz] at h; cases h
    | some d =>
      have hz' : ps'.lookup sWz = some (clampD d) := by rw [hl, hz]; simp
      rw [hz] at h
      rw [hz']
      simp only at h ⊢
      by_cases hrs : rs = true
      · rw [if_pos hrs] at h ⊢
        cases hy : ps.lookup sWy with
        | none => rw [hy] at h; cases h
        | some d' =>
          have hy' : ps'.lookup sWy = some (clampD d') := by rw [hl, hy]; simp [hrs]
          rw [hy] at h
          rw [hy']
          simp only at h ⊢
          cases h
          rw [hb]
      · rw [if_neg hrs] at h ⊢
        cases h
        rw [modify_idem]

theorem reprojectSub_lookup (rs m : Bool) (ls ls' : List (Name × LayerPars)) (h : reprojectSub rs m ls = .ok ls') (k : Name) :
    (ls.lookup k = none ∧ ls'.lookup k = none) ∨
      ∃ ps ps', ls.lookup k = some ps ∧ ls'.lookup k = some ps' ∧ reprojectLayer rs m k ps = .ok ps' := by
  induction ls generalizing ls' with
  | nil => cases h; left; simp
  | cons e ls ih =>
    obtain ⟨n, ps⟩ := e
    unfold reprojectSub at h
    cases h1 : reprojectLayer rs m n ps with
    | error e => rw [h1] at h; cases h
    | ok ps' =>
      cases h2 : reprojectSub rs m ls with
      | error e => rw [h1, h2] at h; cases h
      | ok ls'' =>
        rw [h1, h2] at h; cases h
        by_cases hk : k = n
        · subst hk
          right
          exact ⟨ps, ps', by simp, by simp, h1⟩
        · have hb : (k == n) = false := by simpa using hk
          simp only [List.lookup_cons, hb]
          exact ih ls'' h2

theorem reprojectSub_idem (rs m : Bool) (ls ls' : List (Name × LayerPars)) (h : reprojectSub rs m ls = .ok ls') : reprojectSub rs m ls' = .ok ls' := by
  induction ls generalizing ls' with
  | nil => cases h; rfl
  | cons e ls ih =>
    obtain ⟨n, ps⟩ := e
    unfold reprojectSub at h
    cases h1 : reprojectLayer rs m n ps with
    | error e => rw [h1] at h; cases h
    | ok ps' =>
      cases h2 : reprojectSub rs m ls with
      | error e => rw [h1, h2] at h; cases h
      | ok ls'' =>
        rw [h1, h2] at h; cases h
        unfold reprojectSub
        rw [reprojectLayer_idem rs m n ps ps' h1, ih ls'' h2]

theorem reprojectNode_idem (rs m : Bool) (n : Name) (nd nd' : Node) (h : reprojectNode rs m n nd = .ok nd') : reprojectNode rs m n nd' = .ok nd' := by
  unfold reprojectNode at h ⊢
  by_cases hc : contains sPicnn n = true
  · rw [if_pos hc] at h ⊢
    cases nd with
    | layer ps =>
      simp only at h
      cases h1 : reprojectLayer rs (m || contains sMonotone n) n ps with
      | error e => rw [h1] at h; cases h
      | ok ps' =>
        rw [h1] at h; cases h
        simp only [reprojectLayer_idem _ _ _ _ _ h1]
    | sub ls =>
      simp only at h
      cases h1 : reprojectSub rs (m || contains sMonotone n) ls with
      | error e => rw [h1] at h; cases h
      | ok ls' =>
        rw [h1] at h; cases h
        simp only [reprojectSub_idem _ _ _ _ h1]
  · rw [if_neg hc] at h ⊢

theorem reproject_lookup (rs m : Bool) (t t' : Tree) (h : reproject rs m t = .ok t') (k : Name) :
    (t.lookup k = none ∧ t'.lookup k = none) ∨
      ∃ nd nd', t.lookup k = some nd ∧ t'.lookup k = some nd' ∧ reprojectNode rs m k nd = .ok nd' := by
  induction t generalizing t' with
  | nil => cases h; left; simp
  | cons e t ih =>
    obtain ⟨n, nd⟩ := e
    unfold reproject at h
    cases h1 : reprojectNode rs m n nd with
    | error e => rw [h1] at h; cases h
    | ok nd' =>
      cases h2 : reproject rs m t with
      | error e => rw [h1, h2] at h; cases h
      | ok t'' =>
        rw [h1, h2] at h; cases h
        by_cases hk : k = n
        · subst hk
          right
          exact ⟨nd, nd', by simp, by simp, h1⟩
        · have hb : (k == n) = false := by simpa using hk
          simp only [List.lookup_cons, hb]
          exact ih t'' h2

theorem reproject_idem (rs m : Bool) (t t' : Tree) (h : reproject rs m t = .ok t') : reproject rs m t' = .ok t' := by
  induction t generalizing t' with
  | nil => cases h; rfl
  | cons e t ih =>
    obtain ⟨n, nd⟩ := e
    unfold reproject at h
    cases h1 : reprojectNode rs m n nd with
    | error e => rw [h1] at h; cases h
    | ok nd' =>
      cases h2 : reproject rs m t with
      | error e => rw [h1, h2] at h; cases h
      | ok t'' =>
        rw [h1, h2] at h; cases h
        unfold reproject
        rw [reprojectNode_idem rs m n nd nd' h1, ih t'' h2]

open Classical in
/-- **C73.** After `reproject_weights` every constrained weight is the clamped old one (biases kept), everything else is what it was. -/
theorem C73_pointwise (rs m : Bool) (t t' : Tree) (h : reproject rs m t = .ok t') (p : Path) :
    get t' p = if Constrained rs m p then (get t p).map clampD else get t p := by
  cases p with
  | two n k =>
    rcases reproject_lookup rs m t t' h n with ⟨h1, h2⟩ | ⟨nd, nd', h1, h2, h3⟩
    · simp [get, h1, h2]
    · simp only [get, h1, h2]
      unfold reprojectNode at h3
      by_cases hc : contains sPicnn n = true
      · rw [if_pos hc] at h3
        have hc' : sPicnn <:+: n := (contains_iff _ _).1 hc
        cases nd with
        | layer ps =>
          simp only at h3
          cases h4 : reprojectLayer rs (m || contains sMonotone n) n ps with
          | error e => rw [h4] at h3; cases h3
          | ok ps' =>
            rw [h4] at h3; cases h3
            simp only [reprojectLayer_lookup _ _ _ _ _ h4 k, constrained_two, constrained_three, hc', true_and]
            congr 1
            simp only [Bool.or_eq_true, contains_iff, eq_iff_iff]
            exact taut1 _ _ _ _ _
        | sub ls =>
          simp only at h3
          cases h4 : reprojectSub rs (m || contains sMonotone n) ls with
          | error e => rw [h4] at h3; cases h3
          | ok ls' => rw [h4] at h3; cases h3; simp
      · rw [if_neg hc] at h3
        cases h3
        have hc' : ¬ sPicnn <:+: n := fun h => hc ((contains_iff _ _).2 h)
        simp [constrained_two, constrained_three, hc']
  | three n k0 k =>
    rcases reproject_lookup rs m t t' h n with ⟨h1, h2⟩ | ⟨nd, nd', h1, h2, h3⟩
    · simp [get, h1, h2]
    · simp only [get, h1, h2]
      unfold reprojectNode at h3
      by_cases hc : contains sPicnn n = true
      · rw [if_pos hc] at h3
        have hc' : sPicnn <:+: n := (contains_iff _ _).1 hc
        cases nd with
        | layer ps =>
          simp only at h3
          cases h4 : reprojectLayer rs (m || contains sMonotone n) n ps with
          | error e => rw [h4] at h3; cases h3
          | ok ps' => rw [h4] at h3; cases h3; simp
        | sub ls =>
          simp only at h3
          cases h4 : reprojectSub rs (m || contains sMonotone n) ls with
          | error e => rw [h4] at h3; cases h3
          | ok ls' =>
            rw [h4] at h3; cases h3
            rcases reprojectSub_lookup _ _ _ _ h4 k0 with ⟨g1, g2⟩ | ⟨ps, ps', g1, g2, g3⟩
            · simp [g1, g2]
            · simp only [g1, g2, reprojectLayer_lookup _ _ _ _ _ g3 k, constrained_two, constrained_three, hc', true_and]
              congr 1
              simp only [Bool.or_eq_true, contains_iff, eq_iff_iff]
              exact taut2 _ _ _ _ _ _
      · rw [if_neg hc] at h3
        cases h3
        have hc' : ¬ sPicnn <:+: n := fun h => hc ((contains_iff _ _).2 h)
        simp [constrained_two, constrained_three, hc']

/-- **C73.** Constrained weights end up non-negative. -/
theorem C73_nonneg (rs m : Bool) (t t' : Tree) (h : reproject rs m t = .ok t') (p : Path) (hp : Constrained rs m p) (d : Dense) (hd : get t' p = some d)
    (i j : ℕ) : 0 ≤ d.kernel i j := by
  classical
  rw [C73_pointwise rs m t t' h p, if_pos hp] at hd
  cases hg : get t p with
  | none => rw [hg] at hd; cases hd
  | some d' => rw [hg] at hd; cases hd; exact le_max_left _ _

/-- **C73.** A dense layer all of whose weights are already non-negative is kept, whatever its name, and biases are never changed. -/
theorem C73_keeps (rs m : Bool) (t t' : Tree) (h : reproject rs m t = .ok t') (p : Path) (d : Dense) (hd : get t p = some d) :
    ∃ d', get t' p = some d' ∧ d'.bias = d.bias ∧ (∀ i j, 0 ≤ d.kernel i j → d'.kernel i j = d.kernel i j) := by
  classical
  rw [C73_pointwise rs m t t' h p, hd]
  by_cases hp : Constrained rs m p
  · rw [if_pos hp]
    exact ⟨clampD d, rfl, rfl, fun i j hij => max_eq_right hij⟩
  · rw [if_neg hp]
    exact ⟨d, rfl, rfl, fun _ _ _ => rfl⟩

/-- **C73.** A second projection changes nothing. -/
theorem C73_idempotent (rs m : Bool) (t t' : Tree) (h : reproject rs m t = .ok t') : reproject rs m t' = .ok t' := reproject_idem rs m t t' h

/-- **C73.** No entry is added, removed or moved: the names stay in the same order. -/
theorem C73_names (rs m : Bool) (t t' : Tree) (h : reproject rs m t = .ok t') : t'.map Prod.fst = t.map Prod.fst := by
  induction t generalizing t' with
  | nil => cases h; rfl
  | cons e t ih =>
    obtain ⟨n, nd⟩ := e
    unfold reproject at h
    cases h1 : reprojectNode rs m n nd with
    | error e => rw [h1] at h; cases h
    | ok nd' =>
      cases h2 : reproject rs m t with
      | error e => rw [h1, h2] at h; cases h
      | ok t'' =>
        rw [h1, h2] at h; cases h
        simp [ih t'' h2]

/-- A layer the projection can process: monotone, or with the weights it clamps. -/
def LayerOk (rs m : Bool) (n : Name) (ps : LayerPars) : Prop :=
  sMonotone <:+: n ∨ m = true ∨ (ps.lookup sWz).isSome ∧ (rs = true → (ps.lookup sWy).isSome)

theorem reprojectLayer_ok_iff (rs m : Bool) (n : Name) (ps : LayerPars) : (∃ ps', reprojectLayer rs m n ps = .ok ps') ↔ LayerOk rs m n ps := by
  unfold reprojectLayer LayerOk
  by_cases hm : (contains sMonotone n || m) = true
  · rw [if_pos hm]
    simp only [Bool.or_eq_true, contains_iff] at hm
    constructor
    · intro _; rw [← or_assoc]; exact Or.inl hm
    · intro _; exact ⟨_, rfl⟩
  · rw [if_neg hm]
    simp only [Bool.or_eq_true, contains_iff] at hm
    rw [← or_assoc, or_iff_right hm]
    cases hz : ps.lookup sWz with
    | none => simp
    | some d =>
      cases hrs : rs with
      | false => simp
      | true =>
        cases hy : ps.lookup sWy with
        | none => simp
        | some d' => simp

theorem reprojectSub_ok_iff (rs m : Bool) (ls : List (Name × LayerPars)) : (∃ ls', reprojectSub rs m ls = .ok ls') ↔ ∀ e ∈ ls, LayerOk rs m e.1 e.2 := by
  induction ls with
  | nil => simp [reprojectSub]
  | cons e ls ih =>
    obtain ⟨n, ps⟩ := e
    unfold reprojectSub
    rw [List.forall_mem_cons, ← ih, ← reprojectLayer_ok_iff rs m n ps]
    cases h1 : reprojectLayer rs m n ps with
    | error e => simp
    | ok ps' =>
      cases h2 : reprojectSub rs m ls with
      | error e => simp
      | ok ls' => simp

/-- What the projection needs of one entry of the dictionary. -/
def NodeOk (rs m : Bool) (n : Name) : Node → Prop
  | .layer ps => LayerOk rs m n ps
  | .sub ls => sMonotone <:+: n ∨ ∀ e ∈ ls, LayerOk rs m e.1 e.2

/-- **C73.** The projection fails (KeyError) only if a layer of the convex part has no `wz` (or no `wy` when recursively stable) and is not monotone. -/
theorem C73_succeeds_iff (rs m : Bool) (t : Tree) : (∃ t', reproject rs m t = .ok t') ↔ ∀ e ∈ t, sPicnn <:+: e.1 → NodeOk rs m e.1 e.2 := by
  induction t with
  | nil => simp [reproject]
  | cons e t ih =>
    obtain ⟨n, nd⟩ := e
    unfold reproject
    rw [List.forall_mem_cons, ← ih]
    have key : (∃ nd', reprojectNode rs m n nd = .ok nd') ↔ (sPicnn <:+: n → NodeOk rs m n nd) := by
      unfold reprojectNode
      by_cases hc : contains sPicnn n = true
      · rw [if_pos hc]
        have hc' : sPicnn <:+: n := (contains_iff _ _).1 hc
        simp only [hc', true_imp_iff]
        cases nd with
        | layer ps =>
          simp only [NodeOk]
          have h0 := reprojectLayer_ok_iff rs (m || contains sMonotone n) n ps
          have h1 : LayerOk rs (m || contains sMonotone n) n ps ↔ LayerOk rs m n ps := by
            simp only [LayerOk, Bool.or_eq_true, contains_iff]; exact taut3 _ _ _
          rw [← h1, ← h0]
          cases reprojectLayer rs (m || contains sMonotone n) n ps <;> simp
        | sub ls =>
          simp only [NodeOk]
          have h0 := reprojectSub_ok_iff rs (m || contains sMonotone n) ls
          have h1 : (∀ e ∈ ls, LayerOk rs (m || contains sMonotone n) e.1 e.2) ↔ (sMonotone <:+: n ∨ ∀ e ∈ ls, LayerOk rs m e.1 e.2) := by
            by_cases hm : sMonotone <:+: n
            · have hm' : contains sMonotone n = true := (contains_iff _ _).2 hm
              simp only [hm, true_or, iff_true]
              intro e _
              right; left; simp [hm']
            · have hm' : contains sMonotone n = false := Bool.eq_false_iff.2 (fun h => hm ((contains_iff _ _).1 h))
              simp only [hm, false_or, hm', Bool.or_false]
          rw [← h1, ← h0]
          cases reprojectSub rs (m || contains sMonotone n) ls <;> simp
      · rw [if_neg hc]
        have hc' : ¬ sPicnn <:+: n := fun h => hc ((contains_iff _ _).2 h)
        simp [hc']
    rw [← key]
    cases h1 : reprojectNode rs m n nd with
    | error e => simp
    | ok nd' =>
      cases h2 : reproject rs m t with
      | error e => simp
      | ok t' => simp

end PyF.ICNN
