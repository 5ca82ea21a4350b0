import Verif.FmtUnits.Props

namespace PyF.FmtUnits
open PyF.Names PyF.Transform PyF.Fmt

variable {I : Type} [DecidableEq I]

theorem col?_append (A B : List (Str × Col)) (nm : Str) : col? (A ++ B) nm = (col? A nm).or (col? B nm) := by
  unfold col?
  rw [List.find?_append]
  cases A.find? (fun p => p.1 = nm) <;> rfl

theorem any_iff_col? (A : List (Str × Col)) (nm : Str) : A.any (fun p => p.1 = nm) = (col? A nm).isSome := by
  unfold col?
  induction A with
  | nil => rfl
  | cons p A ih =>
    by_cases h : p.1 = nm
    · simp [h]
    · rw [List.any_cons, List.find?_cons_of_neg (by simpa using h), ← ih]
      simp [h]

/-- The columns a transformer adds, and its new state. -/
theorem transform_gen (tr : Transformer) (F G : Frame) (hdt : F.dt = G.dt)
    (h : ∀ nm ∈ tr.names, col? F.cols nm = col? G.cols nm) :
    (∃ e, ∀ aug, transform tr aug F = .error e ∧ transform tr aug G = .error e) ∨
    ∃ tr' gen ms, (∀ aug, transform tr aug F = .ok (tr', ⟨F.dt, (if aug then F.cols else []) ++ gen⟩, ms)) ∧
      ∀ aug, transform tr aug G = .ok (tr', ⟨G.dt, (if aug then G.cols else []) ++ gen⟩, ms) := by
  have hall : tr.names.all (fun nm => F.cols.any (fun p => p.1 = nm))
      = tr.names.all (fun nm => G.cols.any (fun p => p.1 = nm)) := by
    rw [Bool.eq_iff_iff, List.all_eq_true, List.all_eq_true]
    constructor
    · intro h1 nm hnm
      have := h1 nm hnm
      rw [any_iff_col?, h nm hnm] at this
      rw [any_iff_col?]; exact this
    · intro h1 nm hnm
      have := h1 nm hnm
      rw [any_iff_col?, ← h nm hnm] at this
      rw [any_iff_col?]; exact this
  have hget : ∀ nm ∈ tr.names, F.get nm = G.get nm := by
    intro nm hnm
    have := h nm hnm
    unfold col? at this
    unfold Frame.get
    rw [this]
  have hst : samplingTime tr F = samplingTime tr G := by rw [samplingTime, samplingTime, hdt]
  unfold transform
  rw [hall, hst]
  split
  · split
    · left; exact ⟨_, fun _ => ⟨rfl, rfl⟩⟩
    · right
      refine ⟨_, _, _, fun _ => rfl, fun aug => ?_⟩
      have e : tr.names.flatMap (fun nm => genCols tr (if tr.names = [] then tr.agg else tr.agg.resolve (samplingTime tr G))
            (samplingTime tr G) nm (F.get nm))
          = tr.names.flatMap (fun nm => genCols tr (if tr.names = [] then tr.agg else tr.agg.resolve (samplingTime tr G))
            (samplingTime tr G) nm (G.get nm)) := by
        rw [List.flatMap_def, List.flatMap_def]
        congr 1
        apply List.map_congr_left
        intro nm hnm
        rw [hget nm hnm]
      simp only [e]
  · left; exact ⟨_, fun _ => ⟨rfl, rfl⟩⟩

theorem applyAll_gen (trs : List Transformer) (F G : Frame) (hdt : F.dt = G.dt) (S : Str → Prop)
    (hS : ∀ nm ∈ reads trs, S nm) (h : ∀ nm, S nm → col? F.cols nm = col? G.cols nm) :
    (∃ e, applyAll trs F = .error e ∧ applyAll trs G = .error e) ∨
    ∃ trs' gen, applyAll trs F = .ok (trs', ⟨F.dt, F.cols ++ gen⟩) ∧ applyAll trs G = .ok (trs', ⟨G.dt, G.cols ++ gen⟩) := by
  induction trs generalizing F G with
  | nil => right; exact ⟨[], [], by simp [applyAll], by simp [applyAll]⟩
  | cons tr trs ih =>
    have h1 : ∀ nm ∈ tr.names, col? F.cols nm = col? G.cols nm := fun nm hnm => h nm (hS nm (by simp [reads, hnm]))
    rcases transform_gen tr F G hdt h1 with ⟨e, he⟩ | ⟨tr', gen, ms, hF, hG⟩
    · left
      refine ⟨e, ?_, ?_⟩
      · unfold applyAll; rw [(he true).1]
      · unfold applyAll; rw [(he true).2]
    · have hF' := hF true
      have hG' := hG true
      simp only [if_true] at hF' hG'
      have h2 : ∀ nm, S nm → col? (F.cols ++ gen) nm = col? (G.cols ++ gen) nm := by
        intro nm hnm
        rw [col?_append, col?_append, h nm hnm]
      rcases ih ⟨F.dt, F.cols ++ gen⟩ ⟨G.dt, G.cols ++ gen⟩ hdt
          (fun nm hnm => hS nm (by
            unfold reads at hnm ⊢
            rw [List.flatMap_cons]
            exact List.mem_append_right _ hnm)) h2 with ⟨e, h3, h4⟩ | ⟨trs', gen', h3, h4⟩
      · left
        refine ⟨e, ?_, ?_⟩
        · unfold applyAll; rw [hF']; simp only [h3]
        · unfold applyAll; rw [hG']; simp only [h4]
      · right
        refine ⟨tr' :: trs', gen ++ gen', ?_, ?_⟩
        · unfold applyAll; rw [hF']; simp only [h3, List.append_assoc]
        · unfold applyAll; rw [hG']; simp only [h4, List.append_assoc]

theorem targetCols_gen (trs : List Transformer) (F G : Frame) (hdt : F.dt = G.dt)
    (h : ∀ nm ∈ reads trs, col? F.cols nm = col? G.cols nm) : targetCols trs F = targetCols trs G := by
  induction trs with
  | nil => rfl
  | cons tr trs ih =>
    have h1 : ∀ nm ∈ tr.names, col? F.cols nm = col? G.cols nm := fun nm hnm => h nm (by simp [reads, hnm])
    have h2 := ih (fun nm hnm => h nm (by
            unfold reads at hnm ⊢
            rw [List.flatMap_cons]
            exact List.mem_append_right _ hnm))
    unfold targetCols
    rcases transform_gen tr F G hdt h1 with ⟨e, he⟩ | ⟨tr', gen, ms, hF, hG⟩
    · rw [(he false).1, (he false).2]
    · rw [hF false, hG false, h2]
      simp

theorem newCols_append (F : Frame) (gen : List (Str × Col)) : newCols F (F.cols ++ gen) = newCols F gen := by
  unfold newCols
  rw [List.filter_append]
  have : F.cols.filter (fun p => !(F.cols.any (fun q => q.1 = p.1))) = [] := by
    rw [List.filter_eq_nil_iff]
    intro p hp
    simp only [Bool.not_eq_true', Bool.not_eq_false, List.any_eq_true]
    exact ⟨p, hp, by simp⟩
  rw [this, List.nil_append]

/-- What `transform` hands on besides the original columns of an augmenting formatter: the state of the transformers,
the labels of the feature rows, and the whole target. -/
def core (r : Formatter × IFrame I × IFrame I) : Formatter × List I × IFrame I := (r.1, r.2.1.index, r.2.2)

theorem transformX_same (fm : Formatter) (idx : List I) (F G : Frame) (rt : Bool) (hdt : F.dt = G.dt)
    (h : ∀ nm ∈ reads fm.transformers ++ reads fm.targets, col? F.cols nm = col? G.cols nm)
    (hn : ∀ trs gen, applyAll fm.transformers F = .ok (trs, ⟨F.dt, F.cols ++ gen⟩) →
      ∀ p ∈ gen, (col? F.cols p.1).isSome = (col? G.cols p.1).isSome) :
    (transformX fm idx F rt).map core = (transformX fm idx G rt).map core ∧
      (fm.augment = false → transformX fm idx F rt = transformX fm idx G rt) := by
  rcases applyAll_gen fm.transformers F G hdt (fun nm => nm ∈ reads fm.transformers ++ reads fm.targets)
    (fun nm hnm => List.mem_append_left _ hnm) h with ⟨e, h1, h2⟩ | ⟨trs', gen, h1, h2⟩
  · unfold transformX
    rw [h1, h2]
    exact ⟨rfl, fun _ => rfl⟩
  · have hnc : newCols F (F.cols ++ gen) = newCols G (G.cols ++ gen) := by
      rw [newCols_append, newCols_append]
      unfold newCols
      apply List.filter_congr
      intro p hp
      rw [any_iff_col?, any_iff_col?, hn _ _ h1 p hp]
    have ht : targetCols fm.targets ⟨F.dt, F.cols ++ gen⟩ = targetCols fm.targets ⟨G.dt, G.cols ++ gen⟩ := by
      refine targetCols_gen _ ⟨F.dt, F.cols ++ gen⟩ ⟨G.dt, G.cols ++ gen⟩ hdt ?_
      intro nm hnm
      show col? (F.cols ++ gen) nm = col? (G.cols ++ gen) nm
      rw [col?_append, col?_append, h nm (List.mem_append_right _ hnm)]
    unfold transformX
    rw [h1, h2]
    simp only [hnc, ht]
    cases rt with
    | true =>
      simp only [if_true]
      cases targetCols fm.targets ⟨G.dt, G.cols ++ gen⟩ with
      | error e => exact ⟨rfl, fun _ => rfl⟩
      | ok r =>
        constructor
        · simp only [Except.map, core, IFrame.keepRows]
          cases fm.augment <;> rfl
        · intro ha
          simp only [ha, Bool.false_eq_true, if_false]
    | false =>
      constructor
      · simp only [Bool.false_eq_true, if_false, Except.map, core, IFrame.keepRows]
        cases fm.augment <;> rfl
      · intro ha
        simp only [ha, Bool.false_eq_true, if_false]

theorem col?_perm (A B : List (Str × Col)) (hp : A.Perm B) (hnd : (A.map Prod.fst).Nodup) (nm : Str) :
    col? A nm = col? B nm := by
  have char : ∀ (L : List (Str × Col)), (L.map Prod.fst).Nodup → ∀ c, col? L nm = some c ↔ (nm, c) ∈ L := by
    intro L hL c
    induction L with
    | nil => simp [col?]
    | cons p L ih =>
      rw [List.map_cons, List.nodup_cons] at hL
      unfold col? at ih ⊢
      by_cases hpn : p.1 = nm
      · rw [List.find?_cons_of_pos (by simpa using hpn)]
        simp only [Option.map_some, Option.some.injEq, List.mem_cons]
        constructor
        · intro hc; left; rw [← hpn, ← hc]
        · rintro (hc | hc)
          · rw [← hc]
          · exact absurd (List.mem_map.2 ⟨(nm, c), hc, hpn.symm⟩) hL.1
      · rw [List.find?_cons_of_neg (by simpa using hpn), ih hL.2]
        simp only [List.mem_cons]
        constructor
        · exact Or.inr
        · rintro (hc | hc)
          · exact absurd (by rw [← hc]) hpn
          · exact hc
  have hB : (B.map Prod.fst).Nodup := (hp.map Prod.fst).nodup_iff.1 hnd
  apply Option.ext
  intro c
  rw [char A hnd, char B hB]
  exact hp.mem_iff

/-- C274 (order of the columns): with distinct column names, the order of the columns of the raw frame does not
matter. Features (without augmentation), targets, kept rows and exceptions are the same. With augmentation this still
holds of the targets and of the kept rows. -/
theorem C274_column_order (fm : Formatter) (idx : List I) (F G : Frame) (rt : Bool) (hdt : F.dt = G.dt)
    (hp : F.cols.Perm G.cols) (hnd : (F.cols.map Prod.fst).Nodup) :
    (transformX fm idx F rt).map core = (transformX fm idx G rt).map core ∧
      (fm.augment = false → transformX fm idx F rt = transformX fm idx G rt) :=
  transformX_same fm idx F G rt hdt (fun nm _ => col?_perm _ _ hp hnd nm)
    (fun _ _ _ p _ => by rw [col?_perm _ _ hp hnd p.1])

/-- C274 (further columns): columns that no transformer reads and whose names no transformer produces can be added to
the raw frame without changing features (without augmentation), targets, kept rows and exceptions: not even missing
values in them remove a row. -/
theorem C274_further_columns (fm : Formatter) (idx : List I) (F : Frame) (B : List (Str × Col)) (rt : Bool)
    (hr : ∀ p ∈ B, p.1 ∉ reads fm.transformers ++ reads fm.targets)
    (hg : ∀ trs X, applyAll fm.transformers F = .ok (trs, X) → ∀ p ∈ B, ∀ q ∈ X.cols, q.1 ≠ p.1) :
    (transformX fm idx ⟨F.dt, F.cols ++ B⟩ rt).map core = (transformX fm idx F rt).map core ∧
      (fm.augment = false → transformX fm idx ⟨F.dt, F.cols ++ B⟩ rt = transformX fm idx F rt) := by
  have hB : ∀ nm : Str, (∀ p ∈ B, p.1 ≠ nm) → col? (F.cols ++ B) nm = col? F.cols nm := by
    intro nm hnm
    rw [col?_append]
    have : col? B nm = none := by
      unfold col?
      rw [List.find?_eq_none.2 (fun p hp => by simpa using hnm p hp)]
      rfl
    rw [this, Option.or_none]
  have key := transformX_same fm idx F ⟨F.dt, F.cols ++ B⟩ rt rfl
    (fun nm hnm => (hB nm (fun p hp e => hr p hp (by rw [e]; exact hnm))).symm)
    (fun trs gen h p hp => by
      show _ = (col? (F.cols ++ B) p.1).isSome
      rw [hB p.1 (fun q hq e => hg trs _ h q hq p (List.mem_append_right _ hp) e.symm)])
  exact ⟨key.1.symm, fun ha => (key.2 ha).symm⟩

end PyF.FmtUnits
