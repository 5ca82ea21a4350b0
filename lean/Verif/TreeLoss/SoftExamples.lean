import Verif.TreeLoss.Soft

namespace PyF.TreeLoss

/-- Two paths of one step that are exactly the two scenarios 0 and 1: no loss of the nearest paths, but a positive smooth loss. -/
example : metricLoss (fun _ p => p) (fun (_ : Fin 1) (k : Fin 2) => (k : ℝ)) (fun (i : Fin 2) => (i : ℝ)) = 0 ∧
    0 < softLoss (fun _ p => p) (fun (_ : Fin 1) (k : Fin 2) => (k : ℝ)) (fun (i : Fin 2) => (i : ℝ)) := by
  have h0 : metricLoss (fun _ p => p) (fun (_ : Fin 1) (k : Fin 2) => (k : ℝ)) (fun (i : Fin 2) => (i : ℝ)) = 0 :=
    (C224_loss _ _ _ (by norm_num)).2.2.2.2 fun k => ⟨k, fun _ => rfl⟩
  refine ⟨h0, lt_of_le_of_ne ?_ (Ne.symm fun h => ?_)⟩
  · have := (C302_bounds (fun _ p => p) (fun (_ : Fin 1) (k : Fin 2) => (k : ℝ)) (fun (i : Fin 2) => (i : ℝ))).1
    rwa [h0] at this
  · have := (C302_zero _ _ _ (by norm_num)).1 h 0 1 0
    norm_num at this

end PyF.TreeLoss
