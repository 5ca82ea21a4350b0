import Verif.Pmf.Model
import Verif.Reshape.Model

/-!
Model of `ScenarioGenerator.predict_pmf`, `pyforecaster/forecaster.py` L258-270, on all rows and targets, and of the same call
on a `QRF`, whose quantile array comes from `QRF.predict_quantiles` and `QRF.quantiles_to_numpy`,
`pyforecaster/forecasting_models/randomforests.py` L186-198.

Simplification: the quantiles predicted by the forests for the levels asked for are given (`C177` says which they are).
-/

namespace PyF.Pmf
open PyF

/-- `mapM` of the two loops over rows and targets, stopping at the first error. -/
def mapOk {α β : Type} (f : α → Except PyErr β) : List α → Except PyErr (List β)
  | [] => .ok []
  | a :: l =>
    match f a with
    | .error e => .error e
    | .ok b =>
      match mapOk f l with
      | .error e => .error e
      | .ok bs => .ok (b :: bs)

/-- `predict_pmf` on an array of quantiles, forecaster.py L266-270; `n` is the length of `self.q_vect`. -/
def pmfArray (n : Nat) (edges : List ℚ) (q : List (List (List ℚ))) : Except PyErr (List (List (List ℚ))) :=
  mapOk (fun (r : List (List ℚ)) => mapOk (fun (v : List ℚ) => pmf n v edges) r) q

/-- `QRF.predict_pmf(x, edges, quantiles=levels)`: forecaster.py L265 with randomforests.py L194-198, the frame built by
`quantiles_to_df` with the levels asked for (randomforests.py L145). Without the keyword `levels` is `self.q_vect`. -/
def qrfPmf {L : Type} (n : Nat) (edges : List ℚ) (targets : List L) (levels : List ℚ) {rows : Nat}
    (q : Fin rows → Fin targets.length → Fin levels.length → ℚ) : Except PyErr (List (List (List ℚ))) :=
  match Reshape.toDf targets levels q with
  | .error e => .error e
  | .ok df =>
    match Reshape.qrfToNumpy df with
    | .error e => .error e
    | .ok a => pmfArray n edges a

end PyF.Pmf
