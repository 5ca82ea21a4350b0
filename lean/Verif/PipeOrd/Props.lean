import Verif.PipeOrd.Lemmas

/-! C324: the order in which transformations and targets are added, up to the forecasts. -/

namespace PyF.PipeOrd
open PyF PyF.Names PyF.Transform PyF.Fmt PyF.Pipe PyF.FmtUnits PyF.Ols PyF.Ols.Spec

variable {I : Type} [DecidableEq I] {d m : ℕ}

/-- The same rows with the same forecasts under the names of the targets, in any order of the targets. -/
def SameForecasts (r r2 : List (I × List (Str × ℝ))) : Prop := List.Forall₂ (fun p q => p.1 = q.1 ∧ p.2.Perm q.2) r r2

/-- Two models forecast alike when features and targets are exchanged. -/
def Alike (σ : Equiv.Perm (Fin d)) (τ : Equiv.Perm (Fin m)) (c c2 : Coef d m) : Prop := ∀ x j, pred c2 (fun k => x (σ k)) j = pred c x (τ j)

theorem core (S S' : Solver d m) (kind : String) (vr : Option ℝ) (fm fm2 : Formatter) (hp : fm.transformers.Perm fm2.transformers)
    (hq : fm.targets.Perm fm2.targets) (ha : fm.augment = fm2.augment) (idx : List I) (F : Frame) (hx : OnlyInputs fm.transformers F)
    (hy : OnlyInputs fm.targets F) (g : Fitted d m) (h : fitNamed S kind vr fm idx F = .ok g) (hn : g.featNames.Nodup) (ht : g.targetNames.Nodup)
    (K : ∀ (rows : List (Row d m)) (σ : Equiv.Perm (Fin d)) (τ : Equiv.Perm (Fin m)) (c : Coef d m), FittedOn d m vr fm idx F (trainRows vr rows) →
      FittedOn d m vr fm2 idx F (trainRows vr (rows.map (reorder σ τ))) →
      Ols.fit S kind vr rows = .ok c → ∃ c2, Ols.fit S' kind vr (rows.map (reorder σ τ)) = .ok c2 ∧ Alike σ τ c c2) :
    ∃ g2 : Fitted d m, fitNamed S' kind vr fm2 idx F = .ok g2 ∧ g.featNames.Perm g2.featNames ∧ g.targetNames.Perm g2.targetNames ∧
      ∀ (idx' : List I) (G : Frame), G.cols.map Prod.fst = F.cols.map Prod.fst →
        (predictNamed g idx' G = .error .valueError ∧ predictNamed g2 idx' G = .error .valueError) ∨
        ∃ r r2, predictNamed g idx' G = .ok r ∧ predictNamed g2 idx' G = .ok r2 ∧ SameForecasts r r2 := by
  unfold fitNamed at h
  cases h1 : transformX fm idx F true with
  | error e => rw [h1] at h; cases h
  | ok q =>
    obtain ⟨fm', x, y⟩ := q
    obtain ⟨fm2', x2, y2, h2, hxx, hyy, hp', hq', ha'⟩ := C320_order fm fm2 hp hq ha idx F true hx (fun _ => hy) fm' x y h1
    rw [h1] at h
    simp only at h
    cases h3 : dataOf d m x y with
    | error e => rw [h3] at h; cases h
    | ok rows =>
      rw [h3] at h
      simp only at h
      cases h4 : Ols.fit S kind vr rows with
      | error e => rw [h4] at h; cases h
      | ok c =>
        rw [h4] at h
        simp only [Except.ok.injEq] at h
        subst h
        simp only at hn ht
        have hacc : accepted d x = true ∧ accepted m y = true := by
          unfold dataOf at h3
          split at h3
          · next hh => simpa using hh
          · cases h3
        have hlx : x.cols.length = d := by
          have := hacc.1
          unfold accepted at this
          simp only [Bool.and_eq_true, decide_eq_true_eq] at this
          exact this.1.2
        have hly : y.cols.length = m := by
          have := hacc.2
          unfold accepted at this
          simp only [Bool.and_eq_true, decide_eq_true_eq] at this
          exact this.1.2
        obtain ⟨σ, hσ⟩ := exists_positions (hxx.2.map Prod.fst) hn (by simpa using hlx)
        obtain ⟨τ, hτ⟩ := exists_positions (hyy.2.map Prod.fst) ht (by simpa using hly)
        have h5 : dataOf d m x2 y2 = .ok (rows.map (reorder σ τ)) := by
          unfold dataOf at h3 ⊢
          rw [accepted_same hxx, accepted_same hyy]
          rw [if_pos (by simp [hacc.1, hacc.2])] at h3 ⊢
          obtain rfl := Except.ok.inj h3
          rw [List.map_map, ← hxx.1]
          congr 1
          refine List.map_congr_left fun t _ => ?_
          rw [rowAt_at hxx.2 hn hlx σ hσ, rowAt_at hyy.2 ht hly τ hτ]
          rfl
        obtain ⟨c2, h6, h7⟩ := K rows σ τ c ⟨fm', x, y, rows, h1, h3, rfl⟩ ⟨fm2', x2, y2, _, h2, h5, rfl⟩ h4
        refine ⟨⟨fm2', c2, x2.cols.map Prod.fst, y2.cols.map Prod.fst⟩, ?_, hxx.2.map _, hyy.2.map _, ?_⟩
        · unfold fitNamed
          rw [h2]
          simp only
          rw [h5]
          simp only
          rw [h6]
        · intro idx' G hG
          obtain ⟨i1, fm3, xG, yG, h8, h9⟩ := transformX_later hx h1 hG idx'
          have hx2 : OnlyInputs fm2.transformers F := fun tr htr => hx tr (hp.mem_iff.2 htr)
          obtain ⟨-, fm4, xG2, yG2, h10, h11⟩ := transformX_later hx2 h2 hG idx'
          obtain ⟨fm5, xG3, yG3, h12, hs, -⟩ := C320_order fm' fm2' hp' hq' ha' idx' G false i1 (fun h0 => by cases h0) fm3 xG yG h8
          rw [h10] at h12
          simp only [Except.ok.injEq, Prod.mk.injEq] at h12
          obtain ⟨-, rfl, -⟩ := h12
          unfold predictNamed
          simp only
          rw [h8, h10]
          simp only
          rw [if_pos h9, if_pos h11]
          unfold predictRows
          rw [accepted_same hs]
          by_cases hacc' : accepted d xG = true
          · right
            rw [if_pos hacc', if_pos hacc']
            refine ⟨_, _, rfl, rfl, ?_⟩
            unfold SameForecasts
            rw [← hs.1]
            simp only [List.map_map]
            rw [List.forall₂_map_left_iff, List.forall₂_map_right_iff, List.forall₂_same]
            intro p _
            refine ⟨rfl, ?_⟩
            simp only [Function.comp]
            have hlG : xG.cols.length = d := by
              unfold accepted at hacc'
              simp only [Bool.and_eq_true, decide_eq_true_eq] at hacc'
              exact hacc'.1.2
            have e : (fun j : Fin m => (((y2.cols.map Prod.fst)[j.val]?).getD [], pred c2 (rowAt d xG2.cols p.2) j))
                = (fun j : Fin m => (((y.cols.map Prod.fst)[j.val]?).getD [], pred c (rowAt d xG.cols p.2) j)) ∘ τ := by
              funext j
              simp only [Function.comp, Prod.mk.injEq]
              refine ⟨by rw [hτ j], ?_⟩
              rw [← h7, rowAt_at hs.2 (by rw [h9]; exact hn) hlG σ (by intro k; rw [h11, h9]; exact hσ k)]
            rw [e]
            exact (Equiv.Perm.ofFn_comp_perm τ _).symm
          · left
            rw [if_neg hacc', if_neg hacc']
            exact ⟨rfl, rfl⟩

/-- C324 (kind `linear`): all transformations and targets refer to raw columns and the generated names are distinct. If formatter and forecaster can be fitted with the
transformations and targets added in one order, they can in any other; then, for newer data with the same raw columns, both refuse (`ValueError`: nothing left to
forecast, or missing values) or both give the same forecasts for the same rows under the same names. No feature is a combination of the others. -/
theorem C324_linear (S S' : Solver d m) (vr : Option ℝ) (fm fm2 : Formatter) (hp : fm.transformers.Perm fm2.transformers)
    (hq : fm.targets.Perm fm2.targets) (ha : fm.augment = fm2.augment) (idx : List I) (F : Frame) (hx : OnlyInputs fm.transformers F)
    (hy : OnlyInputs fm.targets F) (g : Fitted d m) (h : fitNamed S "linear" vr fm idx F = .ok g) (hn : g.featNames.Nodup) (ht : g.targetNames.Nodup)
    (hI : ∀ rows : List (Row d m), FittedOn d m vr fm idx F rows → Indep rows ∧ IsBest 0 rows (S 0 rows))
    (hS' : ∀ rows : List (Row d m), FittedOn d m vr fm2 idx F rows → IsBest 0 rows (S' 0 rows)) :
    ∃ g2 : Fitted d m, fitNamed S' "linear" vr fm2 idx F = .ok g2 ∧ g.featNames.Perm g2.featNames ∧ g.targetNames.Perm g2.targetNames ∧
      ∀ (idx' : List I) (G : Frame), G.cols.map Prod.fst = F.cols.map Prod.fst →
        (predictNamed g idx' G = .error .valueError ∧ predictNamed g2 idx' G = .error .valueError) ∨
        ∃ r r2, predictNamed g idx' G = .ok r ∧ predictNamed g2 idx' G = .ok r2 ∧ SameForecasts r r2 :=
  core S S' "linear" vr fm fm2 hp hq ha idx F hx hy g h hn ht (fun rows σ τ c hf hf2 hc =>
    ⟨_, fit_linear _ _ _, fun x j => C321_columns_linear S S' vr rows σ τ (hI _ hf).1 (hI _ hf).2 (hS' _ hf2) c _ hc (fit_linear _ _ _) x j⟩)

/-- C324 (kind `ridge`): the same, without the condition on the features, for at least two training rows. -/
theorem C324_ridge (S S' : Solver d m) (vr : Option ℝ) (fm fm2 : Formatter) (hp : fm.transformers.Perm fm2.transformers)
    (hq : fm.targets.Perm fm2.targets) (ha : fm.augment = fm2.augment) (idx : List I) (F : Frame) (hx : OnlyInputs fm.transformers F)
    (hy : OnlyInputs fm.targets F) (g : Fitted d m) (h : fitNamed S "ridge" vr fm idx F = .ok g) (hn : g.featNames.Nodup) (ht : g.targetNames.Nodup)
    (h2 : ∀ rows : List (Row d m), FittedOn d m vr fm idx F rows → 2 ≤ rows.length)
    (hS : ∀ α ∈ grid, ∀ rs : List (Row d m), rs ≠ [] → IsBest α rs (S α rs)) (hS' : ∀ α ∈ grid, ∀ rs : List (Row d m), rs ≠ [] → IsBest α rs (S' α rs)) :
    ∃ g2 : Fitted d m, fitNamed S' "ridge" vr fm2 idx F = .ok g2 ∧ g.featNames.Perm g2.featNames ∧ g.targetNames.Perm g2.targetNames ∧
      ∀ (idx' : List I) (G : Frame), G.cols.map Prod.fst = F.cols.map Prod.fst →
        (predictNamed g idx' G = .error .valueError ∧ predictNamed g2 idx' G = .error .valueError) ∨
        ∃ r r2, predictNamed g idx' G = .ok r ∧ predictNamed g2 idx' G = .ok r2 ∧ SameForecasts r r2 :=
  core S S' "ridge" vr fm fm2 hp hq ha idx F hx hy g h hn ht (fun rows σ τ c hf _ hc =>
    ⟨_, fit_ridge _ _ _, fun x j => C321_columns_ridge S S' vr rows σ τ (h2 _ hf) hS hS' c _ hc (fit_ridge _ _ _) x j⟩)

end PyF.PipeOrd
