import Verif.FmtViews.Model
import Mathlib.Data.List.Basic
import Mathlib.Tactic.Tauto

/-! C276: plotting the features kept for every target. C277: renaming the features by prediction time. -/

namespace PyF.FmtViews
open PyF PyF.Names PyF.Transform PyF.Prune

variable {C : Type}

/-- Column `c` is a feature made from variable `v`. -/
def MadeFrom (ms : List Meta) (v c : Str) : Prop := ∃ m ∈ ms, m.var = v ∧ m.col = c

/-- `v` is a variable of the transformers. -/
def IsVar (ms : List Meta) (v : Str) : Prop := ∃ m ∈ ms, m.var = v

theorem mem_uniqueNames (l : List Str) (v : Str) : v ∈ uniqueNames l ↔ v ∈ l := by
  induction l with
  | nil => simp [uniqueNames]
  | cons a l ih =>
    simp only [uniqueNames, List.mem_cons, List.mem_filter, ih, ne_eq, decide_not, Bool.not_eq_true', decide_eq_false_iff_not]
    by_cases h : v = a <;> simp [h]

theorem rowsOf_ok (ms : List Meta) (v : Str) (cols : List Str) :
    (∃ r, rowsOf ms v cols = .ok r) ↔ ∀ c ∈ cols, MadeFrom ms v c := by
  induction cols with
  | nil => simp [rowsOf]
  | cons c cs ih =>
    have hhit : ms.filter (fun m => m.var = v ∧ m.col = c) = [] ↔ ¬ MadeFrom ms v c := by
      rw [List.filter_eq_nil_iff]
      unfold MadeFrom
      simp only [decide_eq_true_eq]
      constructor
      · rintro h ⟨m, hm, hv⟩; exact h m hm hv
      · intro h m hm hv; exact h ⟨m, hm, hv⟩
    unfold rowsOf
    cases hf : ms.filter (fun m => m.var = v ∧ m.col = c) with
    | nil =>
      have := hhit.1 hf
      constructor
      · rintro ⟨r, hr⟩; cases hr
      · intro h; exact absurd (h c (by simp)) this
    | cons a l =>
      have hm : MadeFrom ms v c := by
        by_contra hn
        rw [hhit.2 hn] at hf
        cases hf
      simp only
      cases hr : rowsOf ms v cs with
      | error e =>
        rw [hr] at ih
        constructor
        · rintro ⟨r, h⟩; cases h
        · intro h
          obtain ⟨r, h'⟩ := ih.2 (fun d hd => h d (by simp [hd]))
          cases h'
      | ok r =>
        rw [hr] at ih
        have := ih.1 ⟨r, rfl⟩
        refine ⟨fun _ d hd => ?_, fun _ => ⟨_, rfl⟩⟩
        rcases List.mem_cons.1 hd with rfl | hd
        · exact hm
        · exact this d hd

theorem barsOf_ok (ms : List Meta) (cols : List Str) (vs : List Str) :
    (∃ r, barsOf ms cols vs = .ok r) ↔ ∀ v ∈ vs, ∀ c ∈ cols, MadeFrom ms v c := by
  induction vs with
  | nil => simp [barsOf]
  | cons v vs ih =>
    unfold barsOf
    have hr := rowsOf_ok ms v cols
    cases h1 : rowsOf ms v cols with
    | error e =>
      rw [h1] at hr
      constructor
      · rintro ⟨r, h⟩; cases h
      · intro h
        obtain ⟨r, h'⟩ := hr.2 (h v (by simp))
        cases h'
    | ok rows =>
      rw [h1] at hr
      have hv := hr.1 ⟨rows, rfl⟩
      simp only
      cases h2 : barsOf ms cols vs with
      | error e =>
        rw [h2] at ih
        constructor
        · rintro ⟨r, h⟩; cases h
        · intro h
          obtain ⟨r, h'⟩ := ih.2 (fun w hw => h w (by simp [hw]))
          cases h'
      | ok bs =>
        rw [h2] at ih
        have hvs := ih.1 ⟨bs, rfl⟩
        refine ⟨fun _ w hw => ?_, fun _ => ⟨_, rfl⟩⟩
        rcases List.mem_cons.1 hw with rfl | hw
        · exact hv
        · exact hvs w hw

theorem frames_ok (df : List (Str × C)) (targets feats : List (List Meta)) (mf : Option (List Str)) (meth : Method)
    (nLags secs : Int) (ks : List Nat) :
    (∃ r, frames df targets feats mf meth nLags secs ks = .ok r) ↔
      ∀ k ∈ ks, ∃ x, pruneArg df targets feats k mf meth nLags secs = .ok x ∧
        ∀ v, IsVar feats.flatten v → ∀ c ∈ x.map Prod.fst, MadeFrom feats.flatten v c := by
  have hvar : ∀ v, v ∈ uniqueNames (feats.flatten.map Meta.var) ↔ IsVar feats.flatten v := by
    intro v
    rw [mem_uniqueNames, List.mem_map]
    rfl
  induction ks with
  | nil => simp [frames]
  | cons k ks ih =>
    unfold frames
    cases hp : pruneArg df targets feats k mf meth nLags secs with
    | error e =>
      constructor
      · rintro ⟨r, h⟩; cases h
      · intro h
        obtain ⟨x, hx, _⟩ := h k (by simp)
        rw [hp] at hx
        cases hx
    | ok x =>
      simp only
      have hb := barsOf_ok feats.flatten (x.map Prod.fst) (uniqueNames (feats.flatten.map Meta.var))
      cases h1 : barsOf feats.flatten (x.map Prod.fst) (uniqueNames (feats.flatten.map Meta.var)) with
      | error e =>
        rw [h1] at hb
        constructor
        · rintro ⟨r, h⟩; cases h
        · intro h
          obtain ⟨x', hx', hv⟩ := h k (by simp)
          rw [hp] at hx'
          cases hx'
          obtain ⟨r, h'⟩ := hb.2 (fun v hv' => hv v ((hvar v).1 hv'))
          cases h'
      | ok bs =>
        rw [h1] at hb
        have hv := hb.1 ⟨bs, rfl⟩
        simp only
        cases h2 : frames df targets feats mf meth nLags secs ks with
        | error e =>
          rw [h2] at ih
          constructor
          · rintro ⟨r, h⟩; cases h
          · intro h
            obtain ⟨r, h'⟩ := ih.2 (fun k' hk' => h k' (by simp [hk']))
            cases h'
        | ok r =>
          rw [h2] at ih
          have hks := ih.1 ⟨r, rfl⟩
          refine ⟨fun _ k' hk' => ?_, fun _ => ⟨_, rfl⟩⟩
          rcases List.mem_cons.1 hk' with rfl | hk'
          · exact ⟨x, hp, fun v hv' => hv v ((hvar v).2 hv')⟩
          · exact hks k' hk'

/-- C276 (when it works): `plot_dataset_at_stepahead` returns iff there are transformers and, for every target column, pruning
works and every column it keeps is a feature made from every variable. -/
theorem C276_works_iff (df : List (Str × C)) (targets feats : List (List Meta)) (mf : List Str) (meth : Method)
    (nLags secs : Int) :
    (∃ r, plotDataset df targets feats (some mf) meth nLags secs = .ok r) ↔
      feats ≠ [] ∧ ∀ k < (targets.map List.length).sum, ∃ x, prune df targets feats k mf meth nLags secs = .ok x ∧
        ∀ v, IsVar feats.flatten v → ∀ c ∈ x.map Prod.fst, MadeFrom feats.flatten v c := by
  unfold plotDataset
  by_cases hf : feats = []
  · rw [if_pos hf]
    constructor
    · rintro ⟨r, h⟩; cases h
    · rintro ⟨h, _⟩; exact absurd hf h
  · rw [if_neg hf, frames_ok]
    simp only [List.mem_range, pruneArg]
    exact ⟨fun h => ⟨hf, h⟩, fun h => h.2⟩

/-- C276 (defect, two variables): when every generated column comes from one variable, as it does for columns with distinct names, and the transformers use two
variables, the plot raises as soon as some column is kept for some target. -/
theorem C276_two_variables (df : List (Str × C)) (targets feats : List (List Meta)) (mf : List Str) (meth : Method)
    (nLags secs : Int) (hone : ∀ m ∈ feats.flatten, ∀ m' ∈ feats.flatten, m.col = m'.col → m.var = m'.var)
    (v w : Str) (hv : IsVar feats.flatten v) (hw : IsVar feats.flatten w) (hvw : v ≠ w) (k : Nat)
    (hk : k < (targets.map List.length).sum) (x : List (Str × C)) (hx : prune df targets feats k mf meth nLags secs = .ok x)
    (hne : x ≠ []) : ∃ e, plotDataset df targets feats (some mf) meth nLags secs = .error e := by
  cases h : plotDataset df targets feats (some mf) meth nLags secs with
  | error e => exact ⟨e, rfl⟩
  | ok r =>
    obtain ⟨_, h2⟩ := (C276_works_iff df targets feats mf meth nLags secs).1 ⟨r, h⟩
    obtain ⟨x', hx', h3⟩ := h2 k hk
    rw [hx] at hx'
    cases hx'
    obtain ⟨p, hp⟩ := List.exists_mem_of_ne_nil x hne
    have hc : p.1 ∈ x.map Prod.fst := List.mem_map.2 ⟨p, hp, rfl⟩
    obtain ⟨m, hm, hmv, hmc⟩ := h3 v hv _ hc
    obtain ⟨m', hm', hmv', hmc'⟩ := h3 w hw _ hc
    exact absurd (by rw [← hmv, ← hmv', hone m hm m' hm' (by rw [hmc, hmc'])]) hvw

/-- C276 (defect, default arguments): with the default `metadata_features=None` nothing is ever drawn: the call raises unless
there is no target column at all. -/
theorem C276_default (df : List (Str × C)) (targets feats : List (List Meta)) (meth : Method) (nLags secs : Int) :
    (∃ r, plotDataset df targets feats none meth nLags secs = .ok r) ↔ feats ≠ [] ∧ (targets.map List.length).sum = 0 := by
  unfold plotDataset
  by_cases hf : feats = []
  · rw [if_pos hf]
    constructor
    · rintro ⟨r, h⟩; cases h
    · rintro ⟨h, _⟩; exact absurd hf h
  · rw [if_neg hf, frames_ok]
    constructor
    · intro h
      refine ⟨hf, ?_⟩
      by_contra hn
      obtain ⟨x, hx, _⟩ := h 0 (List.mem_range.2 (by omega))
      unfold pruneArg at hx
      simp only at hx
      split at hx
      · cases hx
      · cases hx
      · rw [if_neg hf] at hx; cases hx
    · rintro ⟨_, h⟩ k hk
      rw [h] at hk
      cases hk

theorem rowsOf_mem (ms : List Meta) (v : Str) (cols : List Str) (r : List Meta) (h : rowsOf ms v cols = .ok r) (m : Meta) :
    m ∈ r ↔ m ∈ ms ∧ m.var = v ∧ m.col ∈ cols := by
  induction cols generalizing r with
  | nil => cases h; simp
  | cons c cs ih =>
    unfold rowsOf at h
    have hmem : m ∈ ms.filter (fun m => m.var = v ∧ m.col = c) ↔ m ∈ ms ∧ m.var = v ∧ m.col = c := by
      simp [List.mem_filter]
    cases hf : ms.filter (fun m => m.var = v ∧ m.col = c) with
    | nil => rw [hf] at h; cases h
    | cons a l =>
      rw [hf] at h hmem
      simp only at h
      cases hr : rowsOf ms v cs with
      | error e => rw [hr] at h; cases h
      | ok r' =>
        rw [hr] at h
        cases h
        rw [List.mem_append, hmem, ih r' hr, List.mem_cons]
        tauto

theorem barsOf_mem (ms : List Meta) (cols vs : List Str) (bs : List Bar) (h : barsOf ms cols vs = .ok bs) (b : Bar) :
    b ∈ bs ↔ b.label ∈ vs ∧ ∃ m ∈ ms, m.var = b.label ∧ m.col ∈ cols ∧ m.start = b.left ∧ m.stop = b.right := by
  induction vs generalizing bs with
  | nil => cases h; simp
  | cons v vs ih =>
    unfold barsOf at h
    cases hr : rowsOf ms v cols with
    | error e => rw [hr] at h; cases h
    | ok rows =>
      rw [hr] at h
      simp only at h
      cases hb : barsOf ms cols vs with
      | error e => rw [hb] at h; cases h
      | ok bs' =>
        rw [hb] at h
        cases h
        rw [List.mem_append, ih bs' hb, List.mem_map, List.mem_cons]
        constructor
        · rintro (⟨m, hm, rfl⟩ | ⟨h1, h2⟩)
          · obtain ⟨h1, h2, h3⟩ := (rowsOf_mem ms v cols rows hr m).1 hm
            exact ⟨Or.inl rfl, m, h1, h2, h3, rfl, rfl⟩
          · exact ⟨Or.inr h1, h2⟩
        · rintro ⟨h1 | h1, m, hm, hv, hc, hl, hrr⟩
          · left
            refine ⟨m, (rowsOf_mem ms v cols rows hr m).2 ⟨hm, by rw [hv, h1], hc⟩, ?_⟩
            rw [hl, hrr, ← h1]
          · exact Or.inr ⟨h1, m, hm, hv, hc, hl, hrr⟩

/-- C276 (what is drawn): when the call works there is one picture per target column; the picture of column `k` has a bar for
exactly the features that pruning keeps for it, from the start to the end of the feature's time span, with the variable as legend. -/
theorem C276_bars (df : List (Str × C)) (targets feats : List (List Meta)) (mf : List Str) (meth : Method)
    (nLags secs : Int) (r : List (List Bar)) (h : plotDataset df targets feats (some mf) meth nLags secs = .ok r) :
    r.length = (targets.map List.length).sum ∧
    ∀ (k : Nat) (bs : List Bar), r[k]? = some bs → ∃ x, prune df targets feats k mf meth nLags secs = .ok x ∧
      ∀ b, b ∈ bs ↔ ∃ m ∈ feats.flatten, m.var = b.label ∧ m.col ∈ x.map Prod.fst ∧ m.start = b.left ∧ m.stop = b.right := by
  have key : ∀ (ks : List Nat) (r : List (List Bar)), frames df targets feats (some mf) meth nLags secs ks = .ok r →
      r.length = ks.length ∧ ∀ (j : Nat) (bs : List Bar), r[j]? = some bs → ∃ k x, ks[j]? = some k ∧
        prune df targets feats k mf meth nLags secs = .ok x ∧
        ∀ b, b ∈ bs ↔ ∃ m ∈ feats.flatten, m.var = b.label ∧ m.col ∈ x.map Prod.fst ∧ m.start = b.left ∧ m.stop = b.right := by
    intro ks
    induction ks with
    | nil => intro r hr; cases hr; simp
    | cons k ks ih =>
      intro r hr
      unfold frames at hr
      cases hp : pruneArg df targets feats k (some mf) meth nLags secs with
      | error e => rw [hp] at hr; cases hr
      | ok x =>
        rw [hp] at hr
        simp only at hr
        cases hb : barsOf feats.flatten (x.map Prod.fst) (uniqueNames (feats.flatten.map Meta.var)) with
        | error e => rw [hb] at hr; cases hr
        | ok bs0 =>
          rw [hb] at hr
          simp only at hr
          cases hfr : frames df targets feats (some mf) meth nLags secs ks with
          | error e => rw [hfr] at hr; cases hr
          | ok r' =>
            rw [hfr] at hr
            cases hr
            obtain ⟨h1, h2⟩ := ih r' hfr
            refine ⟨by simp [h1], fun j bs hj => ?_⟩
            cases j with
            | zero =>
              simp only [List.getElem?_cons_zero, Option.some.injEq] at hj
              subst hj
              refine ⟨k, x, rfl, hp, fun b => ?_⟩
              rw [barsOf_mem _ _ _ _ hb]
              constructor
              · exact fun h => h.2
              · rintro ⟨m, hm, hv, hrest⟩
                exact ⟨(mem_uniqueNames _ _).2 (List.mem_map.2 ⟨m, hm, hv⟩), m, hm, hv, hrest⟩
            | succ j =>
              obtain ⟨k', x', hk', hrest⟩ := h2 j bs (by simpa using hj)
              exact ⟨k', x', by simpa using hk', hrest⟩
  unfold plotDataset at h
  split at h
  · cases h
  · obtain ⟨h1, h2⟩ := key _ _ h
    refine ⟨by simpa using h1, fun k bs hk => ?_⟩
    obtain ⟨k', x, hk', hrest⟩ := h2 k bs hk
    have hlt := (List.getElem?_eq_some_iff.1 hk).1
    rw [List.getElem?_range (by rw [h1] at hlt; simpa using hlt)] at hk'
    injection hk' with hk'
    subst hk'
    exact ⟨x, hrest⟩

theorem select_names (df : List (Str × C)) (cs : List Str) (x : List (Str × C)) (h : select df cs = .ok x) :
    x.map Prod.fst = cs := by
  induction cs generalizing x with
  | nil => cases h; rfl
  | cons c cs ih =>
    unfold select at h
    cases hg : getCol df c with
    | none => rw [hg] at h; cases h
    | some p =>
      rw [hg] at h
      simp only at h
      cases hs : select df cs with
      | error e => rw [hs] at h; cases h
      | ok r =>
        rw [hs] at h
        cases h
        unfold getCol at hg
        have := List.find?_some hg
        simp only [decide_eq_true_eq] at this
        rw [List.map_cons, ih r hs, this]

/-- C276 (one variable): with features of a single variable and no further feature names, the plot works iff pruning works for
every target column. -/
theorem C276_one_variable (df : List (Str × C)) (targets feats : List (List Meta)) (meth : Method) (nLags secs : Int)
    (v : Str) (hone : ∀ m ∈ feats.flatten, m.var = v) (hf : feats ≠ []) :
    (∃ r, plotDataset df targets feats (some []) meth nLags secs = .ok r) ↔
      ∀ k < (targets.map List.length).sum, ∃ x, prune df targets feats k [] meth nLags secs = .ok x := by
  rw [C276_works_iff]
  constructor
  · rintro ⟨_, h⟩ k hk
    obtain ⟨x, hx, _⟩ := h k hk
    exact ⟨x, hx⟩
  · intro h
    refine ⟨hf, fun k hk => ?_⟩
    obtain ⟨x, hx⟩ := h k hk
    refine ⟨x, hx, ?_⟩
    rintro w ⟨m0, hm0, rfl⟩ c hc
    unfold prune at hx
    split at hx
    · cases hx
    · cases hx
    · rw [if_neg hf] at hx
      rw [select_names _ _ _ hx, List.append_nil] at hc
      obtain ⟨m, hm, rfl⟩ := List.mem_map.1 hc
      exact ⟨m, (List.mem_filter.1 hm).1, by rw [hone m (List.mem_filter.1 hm).1, hone m0 hm0], rfl⟩

/-- C277 (defect): `rename_features_prediction_time` never returns: it raises `ValueError` before the transformers and the target
transformers were used, and `KeyError` afterwards, since the metadata have no column 'referring_time'. -/
theorem C277_rename (newName : Meta → Str) (feats targets : List (Option (List Meta))) (cols : List Str) (sa : Int) :
    rename newName feats targets cols sa
      = .error (if (∀ m ∈ feats, m = none) ∨ (∀ m ∈ targets, m = none) then .valueError else .keyError) := by
  have hnone : ∀ ms : List (Option (List Meta)), ms.filterMap id = [] ↔ ∀ m ∈ ms, m = none := by
    intro ms
    rw [List.filterMap_eq_nil_iff]
    rfl
  unfold rename concatMeta
  rw [show column "lag".toList = .ok () by decide, show column "referring_time".toList = .error .keyError by decide]
  by_cases h1 : feats.filterMap id = []
  · rw [if_pos h1, if_pos (Or.inl ((hnone _).1 h1))]
  · rw [if_neg h1]
    by_cases h2 : targets.filterMap id = []
    · rw [if_pos h2, if_pos (Or.inr ((hnone _).1 h2))]
    · rw [if_neg h2, if_neg]
      rintro (h | h)
      · exact h1 ((hnone _).2 h)
      · exact h2 ((hnone _).2 h)

end PyF.FmtViews
