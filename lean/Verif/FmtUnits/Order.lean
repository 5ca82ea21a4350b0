import Verif.FmtUnits.Cols
import Verif.Transform.Causal

/-! C320: order in which transformations are added to a formatter. -/

namespace PyF.FmtUnits
open PyF PyF.Names PyF.Transform PyF.Fmt

variable {I : Type} [DecidableEq I]

theorem targetCols_mapPar (trs : List Transformer) (F : Frame) : targetCols trs F = mapPar trs F := by
  induction trs with
  | nil => rfl
  | cons tr trs ih => 
    rw [targetCols, mapPar, ih]
    rcases transform tr false F with _ | ⟨_, _, _⟩
    · rfl
    · rcases mapPar trs F with _ | ⟨_, _⟩ <;> rfl

theorem mapPar_cons_ok {tr : Transformer} {trs : List Transformer} {F : Frame} {r : List Transformer × List (Str × Col)} :
    mapPar (tr :: trs) F = .ok r ↔ ∃ tr' G ms trs' cols, transform tr false F = .ok (tr', G, ms) ∧ mapPar trs F = .ok (trs', cols) ∧
      r = (tr' :: trs', G.cols ++ cols) := by
  rw [mapPar]
  cases h1 : transform tr false F with
  | error e => simp
  | ok q =>
    obtain ⟨tr', G, ms⟩ := q
    simp only
    cases h2 : mapPar trs F with
    | error e => simp
    | ok q =>
      obtain ⟨trs', cols⟩ := q
      simp only [Except.ok.injEq, Prod.mk.injEq]
      constructor
      · intro h; exact ⟨tr', G, ms, trs', cols, ⟨rfl, rfl, rfl⟩, ⟨rfl, rfl⟩, h.symm⟩
      · rintro ⟨_, _, _, _, _, ⟨rfl, rfl, rfl⟩, ⟨rfl, rfl⟩, h⟩; exact h.symm

/-- Transformers that all see the same frame: another order gives the same columns in another order. -/
theorem mapPar_perm {trs trs2 : List Transformer} (hp : trs.Perm trs2) (F : Frame) (trs' : List Transformer) (cols : List (Str × Col))
    (h : mapPar trs F = .ok (trs', cols)) : ∃ trs2' cols2, mapPar trs2 F = .ok (trs2', cols2) ∧ trs'.Perm trs2' ∧ cols.Perm cols2 := by
  induction hp generalizing trs' cols with
  | nil => exact ⟨trs', cols, h, List.Perm.refl _, List.Perm.refl _⟩
  | cons tr _ ih =>
    obtain ⟨tr', G, ms, t1, c1, h1, h2, h3⟩ := mapPar_cons_ok.1 h
    obtain ⟨t2, c2, h4, h5, h6⟩ := ih _ _ h2
    simp only [Prod.mk.injEq] at h3
    obtain ⟨rfl, rfl⟩ := h3
    exact ⟨tr' :: t2, G.cols ++ c2, mapPar_cons_ok.2 ⟨tr', G, ms, t2, c2, h1, h4, rfl⟩, h5.cons _, h6.append_left _⟩
  | swap tr tr2 l =>
    obtain ⟨tr', G, ms, t1, c1, h1, h2, h3⟩ := mapPar_cons_ok.1 h
    obtain ⟨tr2', G2, ms2, t2, c2, h4, h5, h6⟩ := mapPar_cons_ok.1 h2
    simp only [Prod.mk.injEq] at h3 h6
    obtain ⟨rfl, rfl⟩ := h3
    obtain ⟨rfl, rfl⟩ := h6
    refine ⟨tr2' :: tr' :: t2, G2.cols ++ (G.cols ++ c2),
      mapPar_cons_ok.2 ⟨tr2', G2, ms2, tr' :: t2, G.cols ++ c2, h4, mapPar_cons_ok.2 ⟨tr', G, ms, t2, c2, h1, h5, rfl⟩, rfl⟩, List.Perm.swap _ _ _, ?_⟩
    rw [← List.append_assoc, ← List.append_assoc]
    exact List.perm_append_comm.append_right _
  | trans _ _ ih1 ih2 =>
    obtain ⟨t1, c1, h1, h2, h3⟩ := ih1 _ _ h
    obtain ⟨t2, c2, h4, h5, h6⟩ := ih2 _ _ h1
    exact ⟨t2, c2, h4, h2.trans h5, h3.trans h6⟩

theorem notNa_perm (n : Nat) {A B : List (Str × Col)} (h : A.Perm B) : notNa n A = notNa n B := by
  unfold notNa
  apply List.map_congr_left
  intro t _
  rw [Bool.eq_iff_iff, List.all_eq_true, List.all_eq_true]
  exact ⟨fun H p hp => H p (h.mem_iff.2 hp), fun H p hp => H p (h.mem_iff.1 hp)⟩

theorem applyAll_inputs {trs trs' : List Transformer} {F X : Frame} (h : OnlyInputs trs F) (hr : applyAll trs F = .ok (trs', X)) :
    ∃ gen, mapPar trs F = .ok (trs', gen) ∧ X = ⟨F.dt, F.cols ++ gen⟩ := by
  rw [← C80_parallel_eq_sequential trs F h] at hr
  unfold applyPar at hr
  cases h1 : mapPar trs F with
  | error e => rw [h1] at hr; cases hr
  | ok q =>
    obtain ⟨t, gen⟩ := q
    rw [h1] at hr
    simp only [Except.ok.injEq, Prod.mk.injEq] at hr
    obtain ⟨rfl, rfl⟩ := hr
    exact ⟨gen, rfl, rfl⟩

theorem targets_inputs {trs : List Transformer} {F : Frame} (h : OnlyInputs trs F) (gen : List (Str × Col)) :
    targetCols trs ⟨F.dt, F.cols ++ gen⟩ = mapPar trs F := by
  rw [targetCols_gen trs ⟨F.dt, F.cols ++ gen⟩ F rfl, targetCols_mapPar]
  intro nm hnm
  unfold reads at hnm
  obtain ⟨tr, htr, hn⟩ := List.mem_flatMap.1 hnm
  unfold col?
  rw [find_append_of_mem _ _ _ (h tr htr nm hn)]

/-- The frames hold the same columns for the same rows, in any order of the columns. -/
def SameFrame (x y : IFrame I) : Prop := x.index = y.index ∧ x.cols.Perm y.cols

/-- C320: two formatters with the same transformations and targets, added in any order, all of them of columns of the raw frame (the targets only
if they are returned). If one transforms the frame, so does
the other: same rows, same features and targets, only the columns come in another order. -/
theorem C320_order (fm fm2 : Formatter) (hp : fm.transformers.Perm fm2.transformers) (hq : fm.targets.Perm fm2.targets) (ha : fm.augment = fm2.augment)
    (idx : List I) (F : Frame) (rt : Bool) (hx : OnlyInputs fm.transformers F) (hy : rt = true → OnlyInputs fm.targets F) (fm' : Formatter) (x y : IFrame I)
    (h : transformX fm idx F rt = .ok (fm', x, y)) :
    ∃ fm2' x2 y2, transformX fm2 idx F rt = .ok (fm2', x2, y2) ∧ SameFrame x x2 ∧ SameFrame y y2 ∧
      fm'.transformers.Perm fm2'.transformers ∧ fm'.targets.Perm fm2'.targets ∧ fm'.augment = fm2'.augment := by
  have hx2 : OnlyInputs fm2.transformers F := fun tr htr => hx tr (hp.mem_iff.2 htr)
  have hy2 : rt = true → OnlyInputs fm2.targets F := fun hrt tr htr => hy hrt tr (hq.mem_iff.2 htr)
  unfold transformX at h
  cases h1 : applyAll fm.transformers F with
  | error e => rw [h1] at h; cases h
  | ok q =>
    obtain ⟨trs', X⟩ := q
    obtain ⟨gen, h2, rfl⟩ := applyAll_inputs hx h1
    obtain ⟨trs2', gen2, h3, h4, h5⟩ := mapPar_perm hp F trs' gen h2
    have h6 : applyAll fm2.transformers F = .ok (trs2', ⟨F.dt, F.cols ++ gen2⟩) := by
      rw [← C80_parallel_eq_sequential _ F hx2]
      unfold applyPar
      rw [h3]
    have hX : (F.cols ++ gen).Perm (F.cols ++ gen2) := h5.append_left _
    have hN : (newCols F (F.cols ++ gen)).Perm (newCols F (F.cols ++ gen2)) := hX.filter _
    rw [h1] at h
    unfold transformX
    rw [h6]
    simp only at h ⊢
    have hsel : ∀ mk : List Bool, SameFrame ((if fm.augment then (IFrame.mk idx (F.cols ++ gen)) else (IFrame.mk idx (newCols F (F.cols ++ gen)))).keepRows mk)
        ((if fm2.augment then (IFrame.mk idx (F.cols ++ gen2)) else (IFrame.mk idx (newCols F (F.cols ++ gen2)))).keepRows mk) := by
      intro mk
      rw [ha]
      cases fm2.augment
      · exact ⟨rfl, hN.map _⟩
      · exact ⟨rfl, hX.map _⟩
    cases rt with
    | true =>
      simp only [if_true] at h ⊢
      rw [targets_inputs (hy rfl)] at h
      rw [targets_inputs (hy2 rfl)]
      cases h7 : mapPar fm.targets F with
      | error e => rw [h7] at h; cases h
      | ok q =>
        obtain ⟨tts, T⟩ := q
        obtain ⟨tts2, T2, h8, h9, h10⟩ := mapPar_perm hq F tts T h7
        rw [h7] at h
        rw [h8]
        simp only [Except.ok.injEq, Prod.mk.injEq] at h ⊢
        obtain ⟨rfl, rfl, rfl⟩ := h
        have hm : notNa idx.length (newCols F (F.cols ++ gen2)) = notNa idx.length (newCols F (F.cols ++ gen)) := notNa_perm _ hN.symm
        have hmT : notNa idx.length T2 = notNa idx.length T := notNa_perm _ h10.symm
        rw [hm, hmT]
        refine ⟨_, _, _, ⟨rfl, rfl, rfl⟩, hsel _, ?_, h4, h9, ha⟩
        rw [notNa_perm _ ((hN.map (fun p => (p.1, keep (List.zipWith (· && ·) (notNa idx.length (newCols F (F.cols ++ gen))) (notNa idx.length T)) p.2))).symm)]
        exact ⟨rfl, h10.map _⟩
    | false =>
      simp only [Bool.false_eq_true, if_false, Except.ok.injEq, Prod.mk.injEq] at h ⊢
      obtain ⟨rfl, rfl, rfl⟩ := h
      refine ⟨_, _, _, ⟨rfl, rfl, rfl⟩, ?_, ⟨rfl, List.Perm.refl _⟩, h4, hq, ha⟩
      rw [notNa_perm _ hN.symm]
      exact hsel _

/-- C320 (chained transformations): one that refers to a column another one generates has to be added after it; as the first one it raises. -/
theorem C320_chained (fm : Formatter) (tr : Transformer) (trs : List Transformer) (ht : fm.transformers = tr :: trs) (idx : List I) (F : Frame) (rt : Bool)
    (nm : Str) (hn : nm ∈ tr.names) (hno : ∀ c, (nm, c) ∉ F.cols) : transformX fm idx F rt = .error .assertionError := by
  have h1 : transform tr true F = .error .assertionError := by
    unfold transform
    rw [if_neg]
    rw [List.all_eq_true]
    intro H
    have := H nm hn
    rw [List.any_eq_true] at this
    obtain ⟨⟨n, c⟩, hc, he⟩ := this
    simp only [decide_eq_true_eq] at he
    subst he
    exact hno c hc
  unfold transformX
  rw [ht]
  unfold applyAll
  rw [h1]

end PyF.FmtUnits
