import Verif.ReconCov.Units
import Verif.ReconCov.Examples

/-! Concrete instances for C291. -/

namespace PyF.Recon
open PyF

/- One aggregate above two bottom series, from watts to kilowatts; and with base forecasts that are too high by 3. -/
example : (∃ m, fitMinT (N := Nat) (T := Nat) exPinv [(7, [0, 1])] 5 [0, 1, 7] 2 (fun _ _ _ => 1000 * 0) (fun _ r c => 1000 * if r = 0 ∧ c = 1 then 1 else 0) [0, 1] = .ok m) ∧
    ∃ m, fitMinT (N := Nat) (T := Nat) exPinv [(7, [0, 1])] 5 [0, 1, 7] 2 (fun _ _ _ => 0) (fun _ r c => (if r = 0 ∧ c = 1 then 1 else 0) + 3) [0, 1] = .ok m := by
  obtain ⟨m, hm⟩ : ∃ m, fitMinT (N := Nat) (T := Nat) exPinv [(7, [0, 1])] 5 [0, 1, 7] 2 (fun _ _ _ => 0) (fun _ r c => if r = 0 ∧ c = 1 then 1 else 0) [0, 1] = .ok m :=
    (C228_fits_iff (N := Nat) exPinv exPinv_ok [(7, [0, 1])] 5 [[0, 1]] rfl [0, 1, 7] (by decide) ⟨0, by decide, by decide⟩ 2 _ _ _).2 fun t _ => ⟨1, by decide, 0, by decide, 1, by decide, by norm_num⟩
  refine ⟨⟨m.scale 1000, ?_⟩, ?_⟩
  · rw [C291_units_fit exPinv exPinv_ok _ _ _ _ _ _ _ 1000 (by norm_num), hm]
    rfl
  · obtain ⟨m', h1, _⟩ := (C291_bias exPinv exPinv_ok _ _ _ _ _ _ _ (fun _ _ => 3)).2 m hm
    exact ⟨m', h1⟩

/- The hypotheses of linearity: a fitted object and a frame in the order of training. -/
example : ∃ (m : Fitted Nat Nat) (l : List (Nat × ℝ)), predict [(7, [0, 1])] m [0, 1, 7] (fun c => c) = .ok l ∧ l.map (·.1) = [7, 0, 1] := by
  obtain ⟨m, hm⟩ : ∃ m, fitMinT (N := Nat) (T := Nat) exPinv [(7, [0, 1])] 5 [0, 1, 7] 2 (fun _ _ _ => 0) (fun _ r c => if r = 0 ∧ c = 1 then 1 else 0) [0, 1] = .ok m :=
    (C228_fits_iff (N := Nat) exPinv exPinv_ok [(7, [0, 1])] 5 [[0, 1]] rfl [0, 1, 7] (by decide) ⟨0, by decide, by decide⟩ 2 _ _ _).2 fun t _ => ⟨1, by decide, 0, by decide, 1, by decide, by norm_num⟩
  obtain ⟨l, h1, h2, _⟩ := C60_predict_coherent [(7, [0, 1])] (by decide) 5 [0, 1, 7] [0, 1, 7] _ _ _ _ m hm (by decide) rfl (fun c => (c : ℝ))
  exact ⟨m, l, h1, h2⟩

end PyF.Recon
