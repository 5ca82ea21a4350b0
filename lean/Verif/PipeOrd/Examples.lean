import Verif.PipeOrd.Props
import Verif.FmtUnits.OrderExamples
import Verif.Ols.Examples

/-! Example for C324. -/

namespace PyF.PipeOrd
open PyF PyF.Names PyF.Transform PyF.Fmt PyF.Pipe PyF.FmtUnits PyF.Ols PyF.Ols.Spec

theorem ex_transform : ∃ fm' x y, transformX (fmOf [trMean, trLag]) [0, 1, 2, 3, 4, 5, 6] FmtUnits.exF true = .ok (fm', x, y) ∧
    (accepted 2 x = true ∧ accepted 1 y = true) ∧ ((x.cols.map Prod.fst).Nodup ∧ (y.cols.map Prod.fst).Nodup) ∧ x.index.length = 2 := by
  refine ⟨_, _, _, rfl, ?_⟩
  decide +kernel

theorem ex_inputs : OnlyInputs (fmOf [trMean, trLag]).transformers FmtUnits.exF ∧ OnlyInputs (fmOf [trMean, trLag]).targets FmtUnits.exF := by
  constructor
  · intro tr htr
    simp only [fmOf, List.mem_cons, List.not_mem_nil, or_false] at htr
    rcases htr with rfl | rfl <;> intro nm hnm <;> simp only [trMean, trLag, List.mem_singleton] at hnm <;> subst hnm <;> exact ⟨_, List.mem_singleton.2 rfl⟩
  · intro tr htr nm hnm
    simp only [fmOf, FmtUnits.exFm, List.mem_singleton] at htr
    subst htr
    simp only [List.mem_singleton] at hnm
    subst hnm
    exact ⟨_, List.mem_singleton.2 rfl⟩

/-- C324: a moving mean and a lag, added in either order, with ridge regression: the hypotheses hold, and all later forecasts agree. -/
example : ∃ (S : Solver 2 1) (g g2 : Fitted 2 1), fitNamed S "ridge" none (fmOf [trMean, trLag]) [0, 1, 2, 3, 4, 5, 6] FmtUnits.exF = .ok g ∧
    fitNamed S "ridge" none (fmOf [trLag, trMean]) [0, 1, 2, 3, 4, 5, 6] FmtUnits.exF = .ok g2 ∧
    ∀ (idx' : List Nat) (G : Frame), G.cols.map Prod.fst = ["t".toList] →
      (predictNamed g idx' G = .error .valueError ∧ predictNamed g2 idx' G = .error .valueError) ∨
        ∃ r r2, predictNamed g idx' G = .ok r ∧ predictNamed g2 idx' G = .ok r2 ∧ SameForecasts r r2 := by
  obtain ⟨S, hS⟩ := exists_solver 2 1
  obtain ⟨fm', x, y, h1, hacc, hnd, hlen⟩ := ex_transform
  have h2 : dataOf 2 1 x y = .ok ((List.range x.index.length).map (fun t => (rowAt 2 x.cols t, rowAt 1 y.cols t))) := by
    unfold dataOf
    rw [if_pos (by simp [hacc.1, hacc.2])]
  have h3 : ∃ c, fitNamed S "ridge" none (fmOf [trMean, trLag]) [0, 1, 2, 3, 4, 5, 6] FmtUnits.exF = .ok ⟨fm', c, x.cols.map Prod.fst, y.cols.map Prod.fst⟩ := by
    unfold fitNamed
    rw [h1]
    simp only
    rw [h2]
    exact ⟨_, rfl⟩
  obtain ⟨c, h3⟩ := h3
  obtain ⟨g2, h4, -, -, h5⟩ := C324_ridge S S none (fmOf [trMean, trLag]) (fmOf [trLag, trMean]) (List.Perm.swap _ _ _) (List.Perm.refl _) rfl [0, 1, 2, 3, 4, 5, 6] FmtUnits.exF
    ex_inputs.1 ex_inputs.2 _ h3 hnd.1 hnd.2 (by
      rintro rows ⟨fm1, x1, y1, data, e1, e2, rfl⟩
      rw [h1] at e1
      simp only [Except.ok.injEq, Prod.mk.injEq] at e1
      obtain ⟨-, rfl, rfl⟩ := e1
      rw [h2] at e2
      obtain rfl := Except.ok.inj e2
      simp [hlen]) hS hS
  exact ⟨S, _, g2, h3, h4, h5⟩

end PyF.PipeOrd
