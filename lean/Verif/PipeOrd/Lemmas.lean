import Verif.PipeOrd.Model
import Verif.Pipe.Props
import Verif.FmtUnits.Order
import Verif.Ols.Order
import Mathlib.Logic.Equiv.Fin.Basic
import Mathlib.Data.List.FinRange
import Mathlib.Data.Fintype.EquivFin
import Mathlib.Data.List.Nodup

/-! Lemmas for C324. -/

namespace PyF.PipeOrd
open PyF PyF.Names PyF.Transform PyF.Fmt PyF.Pipe PyF.FmtUnits

variable {I : Type} [DecidableEq I] {d m : ℕ}

/-- A transformer that has seen a frame generates the same names from every later frame with its variables and stays as it is. -/
theorem transform_frozen {tr tr' : Transformer} {F X : Frame} {ms : List Meta} (h : transform tr false F = .ok (tr', X, ms)) (G : Frame)
    (hG : ∀ nm ∈ tr.names, ∃ c, (nm, c) ∈ G.cols) :
    tr'.names = tr.names ∧ ∃ X' ms', transform tr' false G = .ok (tr', X', ms') ∧ X'.cols.map Prod.fst = X.cols.map Prod.fst := by
  have h1 : tr.names.all (fun nm => G.cols.any (fun p => p.1 = nm)) = true := by
    rw [List.all_eq_true]
    intro nm hnm
    obtain ⟨c, hc⟩ := hG nm hnm
    rw [List.any_eq_true]
    exact ⟨_, hc, by simp⟩
  unfold transform at h
  split at h
  · split at h
    · cases h
    · next hl =>
      simp only [Except.ok.injEq, Prod.mk.injEq] at h
      obtain ⟨rfl, rfl, -⟩ := h
      refine ⟨rfl, ?_⟩
      have hst : ∀ a', samplingTime { tr with agg := a' } G = samplingTime tr G := fun _ => rfl
      have hres : ∀ (x : Agg) (p q : Nat), (x.resolve p).resolve q = x.resolve p := by
        intro x p q; cases x <;> rfl
      rw [transform, if_pos h1, if_neg hl]
      by_cases hn : tr.names = []
      · simp [hn]
      · simp only [if_neg hn, hst, hres]
        refine ⟨_, _, rfl, ?_⟩
        simp only [Bool.false_eq_true, if_false, List.nil_append, List.map_flatMap, genCols_names]
        rfl
  · cases h

theorem mapPar_frozen {trs trs' : List Transformer} {F : Frame} {gen : List (Str × Col)} (h : mapPar trs F = .ok (trs', gen)) (G : Frame) (hG : OnlyInputs trs G) :
    OnlyInputs trs' G ∧ ∃ gen', mapPar trs' G = .ok (trs', gen') ∧ gen'.map Prod.fst = gen.map Prod.fst := by
  induction trs generalizing trs' gen with
  | nil =>
    rw [mapPar] at h
    simp only [Except.ok.injEq, Prod.mk.injEq] at h
    obtain ⟨rfl, rfl⟩ := h
    exact ⟨hG, [], rfl, rfl⟩
  | cons tr trs ih =>
    obtain ⟨tr', X, ms, t1, c1, h1, h2, h3⟩ := mapPar_cons_ok.1 h
    simp only [Prod.mk.injEq] at h3
    obtain ⟨rfl, rfl⟩ := h3
    obtain ⟨i1, gen', i2, i3⟩ := ih h2 (fun t ht => hG t (List.mem_cons_of_mem _ ht))
    obtain ⟨hn, X', ms', h4, h5⟩ := transform_frozen h1 G (hG tr List.mem_cons_self)
    refine ⟨?_, X'.cols ++ gen', mapPar_cons_ok.2 ⟨tr', X', ms', t1, gen', h4, i2, rfl⟩, by rw [List.map_append, List.map_append, h5, i3]⟩
    intro t ht
    rcases List.mem_cons.1 ht with rfl | ht
    · rw [hn]; exact hG tr List.mem_cons_self
    · exact i1 t ht

theorem newCols_names {F G : Frame} {A B : List (Str × Col)} (hF : G.cols.map Prod.fst = F.cols.map Prod.fst) (h : B.map Prod.fst = A.map Prod.fst) :
    (newCols G B).map Prod.fst = (newCols F A).map Prod.fst := by
  have key : ∀ (H : Frame) (l : List (Str × Col)), (newCols H l).map Prod.fst = (l.map Prod.fst).filter fun n => !((H.cols.map Prod.fst).any fun q => q = n) := by
    intro H l
    unfold newCols
    rw [List.filter_map]
    congr 1
    refine List.filter_congr fun p _ => ?_
    simp only [Function.comp, List.any_map]
    rfl
  rw [key, key, h, hF]

/-- What `transformX` of a trained formatter returns at prediction, in terms of training. -/
theorem transformX_later {fm fm' : Formatter} {idx : List I} {F : Frame} {x y : IFrame I} (hx : OnlyInputs fm.transformers F)
    (h : transformX fm idx F true = .ok (fm', x, y)) {G : Frame} (hG : G.cols.map Prod.fst = F.cols.map Prod.fst) (idx' : List I) :
    OnlyInputs fm'.transformers G ∧ ∃ fm'' xG yG, transformX fm' idx' G false = .ok (fm'', xG, yG) ∧ xG.cols.map Prod.fst = x.cols.map Prod.fst := by
  have hxG : OnlyInputs fm.transformers G := by
    intro tr htr nm hnm
    obtain ⟨c, hc⟩ := hx tr htr nm hnm
    have : nm ∈ G.cols.map Prod.fst := by rw [hG]; exact List.mem_map.2 ⟨_, hc, rfl⟩
    obtain ⟨⟨n, c'⟩, hm, rfl⟩ := List.mem_map.1 this
    exact ⟨c', hm⟩
  unfold transformX at h
  cases h1 : applyAll fm.transformers F with
  | error e => rw [h1] at h; cases h
  | ok q =>
    obtain ⟨trs', X⟩ := q
    obtain ⟨gen, h2, rfl⟩ := applyAll_inputs hx h1
    obtain ⟨i1, gen', i2, i3⟩ := mapPar_frozen h2 G hxG
    rw [h1] at h
    simp only [if_true] at h
    cases h3 : targetCols fm.targets ⟨F.dt, F.cols ++ gen⟩ with
    | error e => rw [h3] at h; cases h
    | ok q =>
      obtain ⟨tts, T⟩ := q
      rw [h3] at h
      simp only [Except.ok.injEq, Prod.mk.injEq] at h
      obtain ⟨rfl, rfl, -⟩ := h
      refine ⟨i1, ?_⟩
      have h6 : applyAll trs' G = .ok (trs', ⟨G.dt, G.cols ++ gen'⟩) := by
        rw [← C80_parallel_eq_sequential _ G i1]
        unfold applyPar
        rw [i2]
      unfold transformX
      rw [h6]
      simp only [Bool.false_eq_true, if_false]
      refine ⟨_, _, _, rfl, ?_⟩
      have hA : (G.cols ++ gen').map Prod.fst = (F.cols ++ gen).map Prod.fst := by rw [List.map_append, List.map_append, hG, i3]
      cases fm.augment
      · simp only [Bool.false_eq_true, if_false, IFrame.keepRows, List.map_map]
        exact newCols_names hG hA
      · simp only [if_true, IFrame.keepRows, List.map_map]
        exact hA

omit [DecidableEq I] in
theorem accepted_same {x x2 : IFrame I} (h : SameFrame x x2) (n : ℕ) : accepted n x2 = accepted n x := by
  obtain ⟨h1, h2⟩ := h
  unfold accepted
  rw [h1, h2.length_eq]
  congr 1
  rw [Bool.eq_iff_iff, List.all_eq_true, List.all_eq_true]
  refine forall₂_congr fun t _ => ?_
  rw [List.all_eq_true, List.all_eq_true]
  exact ⟨fun H p hp => H p (h2.mem_iff.1 hp), fun H p hp => H p (h2.mem_iff.2 hp)⟩

/-- The permutation that takes the positions of distinct names in one order to those in another order. -/
theorem exists_positions {n : ℕ} {A B : List Str} (hp : A.Perm B) (hA : A.Nodup) (hl : A.length = n) :
    ∃ σ : Equiv.Perm (Fin n), ∀ k : Fin n, B[k.val]? = A[(σ k).val]? := by
  subst hl
  have hB : B.Nodup := hp.nodup_iff.1 hA
  have hl : B.length = A.length := hp.length_eq.symm
  have hex : ∀ k : Fin A.length, ∃ i : Fin A.length, A[i.val]? = B[k.val]? := by
    intro k
    have hk : k.val < B.length := by omega
    have : B[k.val] ∈ A := hp.mem_iff.2 (List.getElem_mem hk)
    obtain ⟨i, hi, e⟩ := List.getElem_of_mem this
    exact ⟨⟨i, hi⟩, by rw [List.getElem?_eq_getElem hi, List.getElem?_eq_getElem hk, e]⟩
  choose s hs using hex
  have hinj : Function.Injective s := by
    intro a b hab
    have e : B[a.val]? = B[b.val]? := by rw [← hs a, ← hs b, hab]
    have ha : a.val < B.length := by omega
    exact Fin.ext ((List.getElem?_inj ha hB).1 e)
  exact ⟨Equiv.ofBijective s (Finite.injective_iff_bijective.1 hinj), fun k => (hs k).symm⟩

/-- Columns of the same name are the same. -/
theorem cols_at {A B : List (Str × Col)} (hp : A.Perm B) (hA : (A.map Prod.fst).Nodup) {i j : ℕ} (h : (B.map Prod.fst)[j]? = (A.map Prod.fst)[i]?)
    (hi : i < A.length) : B[j]? = A[i]? := by
  rw [List.getElem?_map, List.getElem?_map, List.getElem?_eq_getElem hi, Option.map_some] at h
  cases hb : B[j]? with
  | none => rw [hb] at h; cases h
  | some p =>
    rw [hb, Option.map_some, Option.some.injEq] at h
    have hpA : p ∈ A := hp.mem_iff.2 (List.mem_of_getElem? hb)
    rw [List.getElem?_eq_getElem hi, List.inj_on_of_nodup_map hA hpA (List.getElem_mem hi) h]

theorem rowAt_at {n : ℕ} {A B : List (Str × Col)} (hp : A.Perm B) (hA : (A.map Prod.fst).Nodup) (hl : A.length = n) (σ : Equiv.Perm (Fin n))
    (hσ : ∀ k : Fin n, (B.map Prod.fst)[k.val]? = (A.map Prod.fst)[(σ k).val]?) (t : ℕ) : rowAt n B t = fun k => rowAt n A t (σ k) := by
  funext k
  unfold rowAt
  rw [cols_at hp hA (hσ k) (by omega)]

end PyF.PipeOrd
