import Verif.Trainer.Model
import Mathlib.Data.List.Nodup
import Mathlib.Tactic.Common
import Mathlib.Algebra.Order.Field.Rat

namespace PyF.Trainer
open PyF

variable {St S : Type}

/-! ### Selection of rows -/

/-- The rows a fold side stands for: the positions, or the positions where the mask is true, in order. -/
def Selects (n : Nat) (s : Sel) (rows : List Nat) : Prop :=
  match s with
  | .pos l => rows = l ∧ ∀ p ∈ l, p < n
  | .mask m => m.length = n ∧ rows.Pairwise (· < ·) ∧ ∀ p : Nat, p ∈ rows ↔ m[p]? = some true

theorem trueAt_spec (m : List Bool) : (trueAt m).Pairwise (· < ·) ∧ ∀ p : Nat, p ∈ trueAt m ↔ m[p]? = some true := by
  unfold trueAt
  constructor
  · exact List.Pairwise.filter _ List.pairwise_lt_range
  · intro p
    rw [List.mem_filter, List.mem_range, List.getD_eq_getElem?_getD]
    constructor
    · rintro ⟨h, h'⟩
      rw [List.getElem?_eq_getElem h] at h' ⊢
      rw [Option.getD_some] at h'
      rw [h']
    · intro h
      rw [h]
      exact ⟨(List.getElem?_eq_some_iff.1 h).1, rfl⟩

theorem selects_unique {n : Nat} {s : Sel} {a b : List Nat} (ha : Selects n s a) (hb : Selects n s b) : a = b := by
  cases s with
  | pos l => exact ha.1.trans hb.1.symm
  | mask m =>
    refine List.Perm.eq_of_pairwise (le := fun x y : Nat => x < y) (fun x y _ _ h1 h2 => by omega) ha.2.1 hb.2.1 ?_
    rw [List.perm_ext_iff_of_nodup]
    · intro p; rw [ha.2.2, hb.2.2]
    · exact ha.2.1.imp (fun h => Nat.ne_of_lt h)
    · exact hb.2.1.imp (fun h => Nat.ne_of_lt h)

theorem iloc_iff (labels : List Label) (s : Sel) (rows : List Nat) : iloc labels s = .ok rows ↔ Selects labels.length s rows := by
  cases s with
  | pos l =>
    unfold iloc Selects
    simp only
    by_cases h : l.all (fun (p : Nat) => decide (p < labels.length)) = true
    · rw [if_pos h]
      rw [List.all_eq_true] at h
      constructor
      · intro e; cases e; exact ⟨rfl, fun p hp => of_decide_eq_true (h p hp)⟩
      · rintro ⟨rfl, _⟩; rfl
    · rw [if_neg h]
      constructor
      · intro e; cases e
      · rintro ⟨_, h2⟩
        exact absurd (List.all_eq_true.2 (fun p hp => decide_eq_true (h2 p hp))) h
  | mask m =>
    unfold iloc
    simp only
    by_cases h : m.length = labels.length
    · rw [if_pos h]
      constructor
      · intro e; cases e; exact ⟨h, trueAt_spec m⟩
      · intro e
        rw [selects_unique e (show Selects labels.length (.mask m) (trueAt m) from ⟨h, trueAt_spec m⟩)]
    · rw [if_neg h]
      constructor
      · intro e; cases e
      · rintro ⟨h', _⟩; exact absurd h' h

/-- The folds stand for these rows. -/
def FoldRows (n : Nat) (folds : List (Sel × Sel)) (rows : List (List Nat × List Nat)) : Prop :=
  List.Forall₂ (fun f r => Selects n f.1 r.1 ∧ Selects n f.2 r.2) folds rows

theorem ilocFolds_iff (labels : List Label) (folds : List (Sel × Sel)) (rows : List (List Nat × List Nat)) : ilocFolds labels folds = .ok rows ↔ FoldRows labels.length folds rows := by
  induction folds generalizing rows with
  | nil =>
    constructor
    · intro e; cases e; exact List.Forall₂.nil
    · intro h; cases h; rfl
  | cons f fs ih =>
    unfold ilocFolds
    constructor
    · intro h
      cases h1 : iloc labels f.1 with
      | error e => rw [h1] at h; cases h
      | ok a =>
        cases h2 : iloc labels f.2 with
        | error e => rw [h1, h2] at h; cases h
        | ok b =>
          cases h3 : ilocFolds labels fs with
          | error e => rw [h1, h2] at h; simp only at h; rw [h3] at h; cases h
          | ok r =>
            rw [h1, h2] at h
            simp only at h
            rw [h3] at h
            cases h
            exact List.Forall₂.cons ⟨(iloc_iff labels _ _).1 h1, (iloc_iff labels _ _).1 h2⟩ ((ih r).1 h3)
    · intro h
      cases h with
      | cons h hr =>
        rw [(iloc_iff labels _ _).2 h.1, (iloc_iff labels _ _).2 h.2]
        simp only
        rw [(ih _).2 hr]

/-! ### C59 -/

theorem lookup_eq {V : Type} {l : List (Key × V)} (hnd : (l.map (·.1)).Nodup) {k : Key} {v : V} (h : (k, v) ∈ l) : l.lookup k = some v := by
  induction l with
  | nil => simp at h
  | cons x l ih =>
    obtain ⟨k', v'⟩ := x
    rw [List.map_cons, List.nodup_cons] at hnd
    rw [List.lookup_cons]
    rcases List.mem_cons.1 h with h' | h'
    · cases h'; simp
    · have : k ≠ k' := by
        intro e
        subst e
        exact hnd.1 (List.mem_map.2 ⟨(k, v), by assumption, rfl⟩)
      rw [show (k == k') = false by simpa using this]
      exact ih hnd.2 h'

theorem lookup_none {V : Type} {l : List (Key × V)} {k : Key} : l.lookup k = none ↔ k ∉ l.map (·.1) := by
  induction l with
  | nil => simp
  | cons x l ih =>
    obtain ⟨k', v'⟩ := x
    rw [List.lookup_cons]
    by_cases e : k = k'
    · subst e; simp
    · rw [show (k == k') = false by simpa using e]
      simp only [ih, List.map_cons, List.mem_cons, not_or]
      exact ⟨fun h => ⟨e, h⟩, fun h => h.2⟩

theorem prefix_inj {a b : Key} : "test_".toList ++ a = "test_".toList ++ b ↔ a = b := Iff.of_eq (List.append_cancel_left_eq _ _ _)

theorem dict_nodup {d : List (Key × S)} (hnd : (d.map (·.1)).Nodup) (c : Cls St S) (st : St) (rows : List (List Nat × List Nat)) : ((cvScores c st rows (.dict d)).map (·.1)).Nodup := by
  unfold cvScores
  rw [List.map_map]
  have : ((fun x : Key × List ℚ => x.1) ∘ fun ks : Key × S => ("test_".toList ++ ks.1, rows.map (fun f => c.score ks.2 (c.fit (c.clone st) f.1) f.2))) = (fun k => "test_".toList ++ k) ∘ (·.1) := rfl
  rw [this, ← List.map_map]
  exact hnd.map (fun a b h => prefix_inj.1 h)

/-- C59 (full): with a non-empty dictionary of scores there is for each of them, under `test_` and its name, one number per fold: the score on the test rows
of a clone fitted on the training rows. The value returned is the mean over the folds of the score named `score` if there is one, else of the first. The model object is left as it was. -/
theorem C59_full (c : Cls St S) (st : St) (labels : List Label) (pairs : List (Sel × Sel)) (folds : Folds) (hfolds : folds = .list pairs ∨ folds = .gen pairs)
    (rows : List (List Nat × List Nat)) (hrows : FoldRows labels.length pairs rows)
    (k0 : Key) (s0 : S) (d : List (Key × S)) (hnd : (((k0, s0) :: d).map (·.1)).Nodup) (k : Nat) :
    ∃ r, crossValidate c st labels folds "full".toList k (.dict ((k0, s0) :: d)) none false = .ok r ∧ r.model = st ∧
      (∀ name s, (name, s) ∈ (k0, s0) :: d → r.scores.lookup ("test_".toList ++ name) = some (rows.map (fun f => c.score s (c.fit (c.clone st) f.1) f.2))) ∧
      (∀ s, ("score".toList, s) ∈ (k0, s0) :: d → r.score = (rows.map (fun f => c.score s (c.fit (c.clone st) f.1) f.2)).sum / rows.length) ∧
      ("score".toList ∉ ((k0, s0) :: d).map (·.1) → r.score = (rows.map (fun f => c.score s0 (c.fit (c.clone st) f.1) f.2)).sum / rows.length) := by
  unfold crossValidate full
  have hread : folds.read = pairs := by rcases hfolds with h | h <;> rw [h] <;> rfl
  rw [if_pos rfl, hread, (ilocFolds_iff _ _ _).2 hrows]
  simp only [Bool.false_eq_true, if_false]
  have hN := dict_nodup hnd c st rows
  have hlook : ∀ name s, (name, s) ∈ (k0, s0) :: d → (cvScores c st rows (.dict ((k0, s0) :: d))).lookup ("test_".toList ++ name) = some (rows.map (fun f => c.score s (c.fit (c.clone st) f.1) f.2)) := by
    intro name s hm
    exact lookup_eq hN (List.mem_map.2 ⟨(name, s), hm, rfl⟩)
  have hkeys : ∀ name : Key, "test_".toList ++ name ∈ (cvScores c st rows (.dict ((k0, s0) :: d))).map (·.1) ↔ name ∈ ((k0, s0) :: d).map (·.1) := by
    intro name
    unfold cvScores
    rw [List.map_map, List.mem_map, List.mem_map]
    constructor
    · rintro ⟨x, hx, he⟩; exact ⟨x, hx, prefix_inj.1 he⟩
    · rintro ⟨x, hx, he⟩; exact ⟨x, hx, prefix_inj.2 he⟩
  have hts : "test_score".toList ∈ (["fit_time".toList, "score_time".toList] ++ [] : List Key) ++ (cvScores c st rows (.dict ((k0, s0) :: d))).map (·.1) ↔ "score".toList ∈ ((k0, s0) :: d).map (·.1) := by
    rw [List.mem_append, show "test_score".toList = "test_".toList ++ "score".toList by decide, hkeys]
    constructor
    · rintro (h | h)
      · exact absurd h (by decide)
      · exact h
    · exact Or.inr
  unfold getScoreKey
  simp only [Option.getD_none]
  by_cases hsc : "score".toList ∈ ((k0, s0) :: d).map (·.1)
  · rw [if_pos (hts.2 hsc)]
    obtain ⟨⟨n1, s1⟩, hm, he⟩ := List.mem_map.1 hsc
    simp only at he
    subst he
    have h1 : "test_score".toList = "test_".toList ++ "score".toList := by decide
    rw [h1, hlook _ s1 hm]
    simp only
    refine ⟨_, rfl, rfl, hlook, ?_, fun h => absurd hsc h⟩
    intro s hs
    have : some (rows.map (fun f => c.score s (c.fit (c.clone st) f.1) f.2)) = some (rows.map (fun f => c.score s1 (c.fit (c.clone st) f.1) f.2)) := by
      rw [← hlook _ s hs, ← hlook _ s1 hm]
    simp only [mean]
    rw [← Option.some.inj this, List.length_map]
  · rw [if_neg (fun h => hsc (hts.1 h))]
    rw [hlook k0 s0 (by simp)]
    simp only
    refine ⟨_, rfl, rfl, hlook, fun s hs => absurd (List.mem_map.2 ⟨_, hs, rfl⟩) hsc, fun _ => ?_⟩
    simp only [mean, List.length_map]

/-- C59 (full, one scorer): the scores of the folds are under `test_score`, their mean is returned. -/
theorem C59_full_single (c : Cls St S) (st : St) (labels : List Label) (pairs : List (Sel × Sel)) (folds : Folds) (hfolds : folds = .list pairs ∨ folds = .gen pairs)
    (rows : List (List Nat × List Nat)) (hrows : FoldRows labels.length pairs rows) (s : S) (k : Nat) :
    crossValidate c st labels folds "full".toList k (.single s) none false = .ok {
      scores := [("test_score".toList, rows.map (fun f => c.score s (c.fit (c.clone st) f.1) f.2))]
      score := (rows.map (fun f => c.score s (c.fit (c.clone st) f.1) f.2)).sum / rows.length
      stored := []
      model := st } := by
  unfold crossValidate full
  have hread : folds.read = pairs := by rcases hfolds with h | h <;> rw [h] <;> rfl
  rw [if_pos rfl, hread, (ilocFolds_iff _ _ _).2 hrows]
  simp only [Bool.false_eq_true, if_false]
  unfold getScoreKey cvScores
  simp only [Option.getD_none]
  rw [if_pos (by simp)]
  simp only [List.lookup_cons, beq_self_eq_true, mean, List.length_map]

/-- C59 (random fold, dictionary of scores): without a score key the call succeeds iff one of the scores is itself named `test_score` or `test_` and the name of the first;
in particular it fails for ordinary names. With a score key it succeeds iff this is the name of one of the scores. -/
theorem C59_random_fold_dict (c : Cls St S) (st : St) (labels : List Label) (l : List (Sel × Sel)) (k : Nat) (f : Sel × Sel) (hf : l[k]? = some f) (tr te : List Nat) (htr : loc labels f.1 = .ok tr)
    (hte : loc labels f.2 = .ok te) (k0 : Key) (s0 : S) (d : List (Key × S)) (storage : Bool) :
    ((∃ r, crossValidate c st labels (.list l) "random_fold".toList k (.dict ((k0, s0) :: d)) none storage = .ok r) ↔
      "test_score".toList ∈ ((k0, s0) :: d).map (·.1) ∨ "test_".toList ++ k0 ∈ ((k0, s0) :: d).map (·.1)) ∧
      ∀ key, (∃ r, crossValidate c st labels (.list l) "random_fold".toList k (.dict ((k0, s0) :: d)) (some key) storage = .ok r) ↔ key ∈ ((k0, s0) :: d).map (·.1) := by
  have hmap : (((k0, s0) :: d).map (fun ks => (ks.1, [c.score ks.2 (c.fit st tr) te]))).map (·.1) = ((k0, s0) :: d).map (·.1) := by
    rw [List.map_map]; rfl
  have key : ∀ sk : Option Key, (∃ r, crossValidate c st labels (.list l) "random_fold".toList k (.dict ((k0, s0) :: d)) sk storage = .ok r) ↔
      sk.getD (if "test_score".toList ∈ ((k0, s0) :: d).map (·.1) then "test_score".toList else "test_".toList ++ k0) ∈ ((k0, s0) :: d).map (·.1) := by
    intro sk
    unfold crossValidate randomFold
    rw [if_neg (by decide), if_pos rfl]
    simp only
    rw [hf]
    simp only
    rw [htr, hte]
    simp only
    unfold getScoreKey
    simp only [hmap]
    cases hl : List.lookup (sk.getD (if "test_score".toList ∈ ((k0, s0) :: d).map (·.1) then "test_score".toList else "test_".toList ++ k0)) (((k0, s0) :: d).map (fun ks => (ks.1, [c.score ks.2 (c.fit st tr) te]))) with
    | none =>
      rw [lookup_none, hmap] at hl
      simp only
      constructor
      · rintro ⟨r, hr⟩; cases hr
      · intro h; exact absurd h hl
    | some v =>
      simp only
      constructor
      · intro _
        by_contra hc
        have := lookup_none.2 (show _ ∉ (((k0, s0) :: d).map (fun ks => (ks.1, [c.score ks.2 (c.fit st tr) te]))).map (·.1) by rw [hmap]; exact hc)
        rw [hl] at this
        cases this
      · intro _; exact ⟨_, rfl⟩
  refine ⟨?_, fun sk => key (some sk)⟩
  rw [key none]
  simp only [Option.getD_none]
  by_cases h : "test_score".toList ∈ ((k0, s0) :: d).map (·.1)
  · rw [if_pos h]; tauto
  · rw [if_neg h]; tauto

/-- C59 (unknown type): refused. -/
theorem C59_unknown_type (c : Cls St S) (st : St) (labels : List Label) (folds : Folds) (cvType : Key) (k : Nat) (scoring : Scoring S) (sk : Option Key) (storage : Bool)
    (h1 : cvType ≠ "full".toList) (h2 : cvType ≠ "random_fold".toList) : crossValidate c st labels folds cvType k scoring sk storage = .error .valueError := by
  unfold crossValidate
  rw [if_neg h1, if_neg h2]

/-! ### C107: labels instead of positions -/

theorem loc_mask (labels : List Label) (m : List Bool) (rows : List Nat) : loc labels (.mask m) = .ok rows ↔ Selects labels.length (.mask m) rows := iloc_iff labels (.mask m) rows

/-- C107 (selection): masks are read by position. Folds of positions are read as labels: for distinct labels the rows meant are obtained iff the label at each of the
positions is the position itself; for time stamps a non-empty side is always refused. -/
theorem C107_positions_read_as_labels (labels : List Label) (hnd : labels.Nodup) (l : List Nat) (hl : l ≠ []) :
    (loc labels (.pos l) = .ok l ↔ ∀ p ∈ l, labels[p]? = some (Label.int p)) ∧ ((∀ x ∈ labels, ∃ t, x = Label.time t) → loc labels (.pos l) = .error .keyError) ∧
      ∀ m rows, loc labels (.mask m) = .ok rows ↔ Selects labels.length (.mask m) rows := by
  have huniq : ∀ (p : Nat) (x : Label), labels[p]? = some x → (List.range labels.length).filter (fun (i : Nat) => decide (labels[i]? = some x)) = [p] := by
    intro p x hp
    have hlt := (List.getElem?_eq_some_iff.1 hp).1
    refine List.Perm.eq_of_pairwise (le := fun x y : Nat => x < y) (fun x y _ _ h1 h2 => by omega) (List.Pairwise.filter _ List.pairwise_lt_range) (by simp) ?_
    rw [List.perm_ext_iff_of_nodup (List.Nodup.filter _ List.nodup_range) (by simp)]
    intro i
    rw [List.mem_filter, List.mem_range, decide_eq_true_eq, List.mem_singleton]
    constructor
    · rintro ⟨hi, he⟩
      exact (List.getElem?_inj hi hnd).1 (he.trans hp.symm)
    · rintro rfl; exact ⟨hlt, hp⟩
  refine ⟨?_, ?_, fun m rows => loc_mask labels m rows⟩
  · unfold loc
    simp only
    constructor
    · intro h
      split at h
      · rename_i hall
        rw [List.all_eq_true] at hall
        have h' := Except.ok.inj h
        -- each label occurs exactly once, so the flat map is a map
        have hpos : ∀ p ∈ l, ∃ q : Nat, labels[q]? = some (Label.int p) := fun p hp => List.mem_iff_getElem?.1 (of_decide_eq_true (hall p hp))
        clear h hall hl
        generalize hg : (fun (p : Nat) => (List.range labels.length).filter (fun (i : Nat) => decide (labels[i]? = some (Label.int p)))) = g at h'
        have hg' : ∀ p ∈ l, ∃ q : Nat, labels[q]? = some (Label.int p) ∧ g p = [q] := by
          intro p hp
          obtain ⟨q, hq⟩ := hpos p hp
          exact ⟨q, hq, by rw [← hg]; exact huniq q _ hq⟩
        clear hpos hg
        induction l with
        | nil => simp
        | cons p l ih =>
          obtain ⟨q, hq, hgp⟩ := hg' p (by simp)
          rw [List.flatMap_cons, hgp, List.singleton_append, List.cons.injEq] at h'
          intro r hr
          rcases List.mem_cons.1 hr with hr | hr
          · rw [hr, ← h'.1] ; rw [h'.1] at hq ⊢; exact hq
          · exact ih h'.2 (fun p hp => hg' p (by simp [hp])) r hr
      · cases h
    · intro h
      rw [if_pos (List.all_eq_true.2 (fun p hp => decide_eq_true (List.mem_of_getElem? (h p hp))))]
      congr 1
      clear hl
      induction l with
      | nil => rfl
      | cons p l ih =>
        rw [List.flatMap_cons, huniq p _ (h p (by simp)), ih (fun r hr => h r (by simp [hr]))]
        rfl
  · intro ht
    unfold loc
    simp only
    rw [if_neg]
    intro hall
    rw [List.all_eq_true] at hall
    obtain ⟨p, hp⟩ := List.exists_mem_of_ne_nil _ hl
    obtain ⟨t, he⟩ := ht _ (of_decide_eq_true (hall p hp))
    cases he

/-- C107 (random fold): on a frame with time stamps, a fold of (non-empty) positions is refused by `random_fold`; so is storing results of a full run. -/
theorem C107_kfold_on_time_index (c : Cls St S) (st : St) (labels : List Label) (hnd : labels.Nodup) (ht : ∀ x ∈ labels, ∃ t, x = Label.time t) (l : List (Sel × Sel)) (k : Nat) (tr te : List Nat) (htr : tr ≠ [])
    (hte : te ≠ []) (hf : l[k]? = some (.pos tr, .pos te)) (scoring : Scoring S) (sk : Option Key) :
    (∀ storage, crossValidate c st labels (.list l) "random_fold".toList k scoring sk storage = .error .keyError) ∧
      ∃ e, crossValidate c st labels (.list l) "full".toList k scoring sk true = .error e := by
  constructor
  · intro storage
    unfold crossValidate randomFold
    rw [if_neg (by decide), if_pos rfl]
    simp only
    rw [hf]
    simp only
    rw [(C107_positions_read_as_labels labels hnd tr htr).2.1 ht]
  · unfold crossValidate full
    rw [if_pos rfl]
    have hst : ∃ e, stored labels (.list l) = .error e := by
      unfold stored
      simp only
      have hm : (Sel.pos tr, Sel.pos te) ∈ l := List.mem_of_getElem? hf
      clear hf
      induction l with
      | nil => simp at hm
      | cons f l ih =>
        rw [List.mapM_cons]
        cases hl : loc labels f.2 with
        | error e => exact ⟨e, rfl⟩
        | ok v =>
          rcases List.mem_cons.1 hm with h | h
          · rw [← h, (C107_positions_read_as_labels labels hnd te hte).2.1 ht] at hl
            cases hl
          · obtain ⟨e, he⟩ := ih h
            refine ⟨e, ?_⟩
            change (do let rest ← l.mapM (fun (f : Sel × Sel) => loc labels f.2); pure (v :: rest)) = _
            rw [he]
            rfl
    obtain ⟨e, he⟩ := hst
    cases h1 : ilocFolds labels (Folds.read (.list l)) with
    | error e => exact ⟨e, rfl⟩
    | ok rows =>
      simp only [if_true]
      split
      · exact ⟨_, rfl⟩
      · split
        · exact ⟨_, rfl⟩
        · rw [he]; exact ⟨_, rfl⟩

/-- C107 (generators): folds given as a generator are refused by `random_fold` and when results are stored. -/
theorem C107_generator (c : Cls St S) (st : St) (labels : List Label) (l : List (Sel × Sel)) (k : Nat) (scoring : Scoring S) (sk : Option Key) :
    (∀ storage, crossValidate c st labels (.gen l) "random_fold".toList k scoring sk storage = .error .typeError) ∧
      ∃ e, crossValidate c st labels (.gen l) "full".toList k scoring sk true = .error e := by
  constructor
  · intro storage
    unfold crossValidate randomFold
    rw [if_neg (by decide), if_pos rfl]
  · unfold crossValidate full
    rw [if_pos rfl]
    cases h1 : ilocFolds labels (Folds.read (.gen l)) with
    | error e => exact ⟨e, rfl⟩
    | ok rows =>
      simp only [if_true]
      split
      · exact ⟨_, rfl⟩
      · split
        · exact ⟨_, rfl⟩
        · exact ⟨_, rfl⟩

/-! ### C108: which object is trained -/

/-- The state of the model object after a sequence of successful calls with drawn folds (as in a hyper-parameter search), for a scorer. -/
def afterTrials (c : Cls St S) (labels : List Label) (l : List (Sel × Sel)) (cvType : Key) (s : S) : List Nat → St → Except PyErr St
  | [], st => .ok st
  | k :: ks, st =>
    match crossValidate c st labels (.list l) cvType k (.single s) none false with
    | .error e => .error e
    | .ok r => afterTrials c labels l cvType s ks r.model

/-- C108: a full run never trains the object it is given, over any number of trials; a sequence of random-fold trials leaves it fitted successively on
all the drawn training sets, and the score of each trial is that of the object fitted on top of its past. -/
theorem C108_trained_object (c : Cls St S) (st : St) (labels : List Label) (l : List (Sel × Sel)) (s : S) :
    (∀ ks st', afterTrials c labels l "full".toList s ks st = .ok st' → st' = st) ∧
      (∀ ks st', afterTrials c labels l "random_fold".toList s ks st = .ok st' → ∃ trs : List (List Nat), List.Forall₂ (fun (k : Nat) tr => ∃ f, l[k]? = some f ∧ loc labels f.1 = .ok tr) ks trs ∧
        st' = trs.foldl c.fit st) ∧
      (∀ k r, crossValidate c st labels (.list l) "random_fold".toList k (.single s) none false = .ok r → ∃ f tr te, l[k]? = some f ∧ loc labels f.1 = .ok tr ∧ loc labels f.2 = .ok te ∧
        r.model = c.fit st tr ∧ r.score = c.score s (c.fit st tr) te) := by
  have hrand : ∀ st k r, crossValidate c st labels (.list l) "random_fold".toList k (.single s) none false = .ok r → ∃ f tr te, l[k]? = some f ∧ loc labels f.1 = .ok tr ∧ loc labels f.2 = .ok te ∧
        r.model = c.fit st tr ∧ r.score = c.score s (c.fit st tr) te := by
    intro st k r h
    unfold crossValidate randomFold at h
    rw [if_neg (by decide), if_pos rfl] at h
    simp only at h
    cases hf : l[k]? with
    | none => rw [hf] at h; cases h
    | some f =>
      rw [hf] at h
      simp only at h
      cases h1 : loc labels f.1 with
      | error e => rw [h1] at h; cases h
      | ok tr =>
        cases h2 : loc labels f.2 with
        | error e => rw [h1, h2] at h; cases h
        | ok te =>
          rw [h1, h2] at h
          simp only [getScoreKey, List.map_cons, List.map_nil, List.mem_singleton, if_true, Option.getD_none, List.lookup_cons, beq_self_eq_true] at h
          cases h
          refine ⟨f, tr, te, rfl, h1, h2, rfl, ?_⟩
          simp only [mean, List.sum_singleton, List.length_singleton, Nat.cast_one, div_one]
  refine ⟨?_, ?_, hrand st⟩
  · intro ks
    induction ks with
    | nil => intro st' h; cases h; rfl
    | cons k ks ih =>
      intro st' h
      unfold afterTrials at h
      cases hc : crossValidate c st labels (.list l) "full".toList k (.single s) none false with
      | error e => rw [hc] at h; cases h
      | ok r =>
        rw [hc] at h
        simp only at h
        have : r.model = st := by
          unfold crossValidate at hc
          rw [if_pos rfl] at hc
          unfold full at hc
          cases h1 : ilocFolds labels (Folds.read (.list l)) with
          | error e => rw [h1] at hc; cases hc
          | ok rows =>
            rw [h1] at hc
            simp only [Bool.false_eq_true, if_false] at hc
            split at hc
            · cases hc
            · split at hc
              · cases hc
              · cases hc; rfl
        rw [this] at h
        exact ih st' h
  · intro ks
    induction ks generalizing st with
    | nil => intro st' h; cases h; exact ⟨[], List.Forall₂.nil, rfl⟩
    | cons k ks ih =>
      intro st' h
      unfold afterTrials at h
      cases hc : crossValidate c st labels (.list l) "random_fold".toList k (.single s) none false with
      | error e => rw [hc] at h; cases h
      | ok r =>
        rw [hc] at h
        simp only at h
        obtain ⟨f, tr, te, e1, e2, _, e4, _⟩ := hrand st k r hc
        obtain ⟨trs, g1, g2⟩ := ih r.model st' h
        refine ⟨tr :: trs, List.Forall₂.cons ⟨f, e1, e2⟩ g1, ?_⟩
        rw [g2, e4]
        rfl

end PyF.Trainer
