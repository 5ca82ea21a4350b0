import Verif.Common
import Mathlib.Data.List.Dedup
import Mathlib.Data.List.ProdSigma
import Mathlib.Data.Fin.Tuple.Basic
import Mathlib.Logic.Equiv.Fin.Basic

/-!
Model of the conversions between quantile arrays and labelled frames:
`forecaster.py` L233-246 (`quantiles_to_df`, `quantiles_to_numpy`) and
`forecasting_models/randomforests.py` L138-148 (`predict`, squeeze) and L186-192 (`quantiles_to_numpy`).
-/

namespace PyF.Reshape
open PyF

/-- A labelled frame with a two-level column index (target, level). -/
structure QFrame (L Q α : Type) where
  columns : List (L × Q)
  rows : List (List α)

/-- `quantiles_to_df`, `forecaster.py` L233-239. `np.reshape` of an `(n, t, k)` array to `(n, t*k)` is
row-major: column `c` holds entry `(c / k, c % k)`. pandas raises `ValueError` if the number of columns
differs from the number of labels. -/
def toDf {L Q α : Type} {n t k : Nat} (targets : List L) (levels : List Q) (q : Fin n → Fin t → Fin k → α) :
    Except PyErr (QFrame L Q α) :=
  if (targets ×ˢ levels).length ≠ t * k then .error .valueError
  else .ok
    { columns := targets ×ˢ levels
      rows := List.ofFn (fun i => List.ofFn (fun c : Fin (t * k) => q i c.divNat c.modNat)) }

/-- Cut a row in `m` consecutive chunks of length `k` (row-major reshape of a vector of length `m*k`). -/
def chunks {α : Type} (m k : Nat) (row : List α) : List (List α) :=
  (List.range m).map (fun j => (row.drop (j * k)).take k)

/-- `n_taus = len(q_hat.columns.get_level_values(1).unique())`, L243 / `randomforests.py` L188. -/
def nTaus {L Q α : Type} [DecidableEq Q] (df : QFrame L Q α) : Nat := (df.columns.map Prod.snd).dedup.length

/-- `quantiles_to_numpy` of the base class, `forecaster.py` L241-246:
`np.reshape(values, (n_rows, -1, n_taus))`. numpy raises `ValueError` when the unknown dimension cannot be
inferred (a zero among the known ones) or when the size is not divisible. -/
def toNumpy {L Q α : Type} [DecidableEq Q] (df : QFrame L Q α) : Except PyErr (List (List (List α))) :=
  let w := df.columns.length
  if df.rows.length = 0 ∨ nTaus df = 0 then .error .valueError
  else if w % nTaus df ≠ 0 then .error .valueError
  else .ok (df.rows.map (chunks (w / nTaus df) (nTaus df)))

/-- `np.swapaxes` of the last two axes of one `(k, t)` slab to `(t, k)`. -/
def swap {α : Type} (t : Nat) (slab : List (List α)) : List (List α) :=
  (List.range t).map (fun j => slab.filterMap (fun c => c[j]?))

/-- `QRF.quantiles_to_numpy`, `randomforests.py` L186-192: reshape to `(n_rows, n_taus, -1)`, then swap the
last two axes. -/
def qrfToNumpy {L Q α : Type} [DecidableEq Q] (df : QFrame L Q α) : Except PyErr (List (List (List α))) :=
  let w := df.columns.length
  if df.rows.length = 0 ∨ nTaus df = 0 then .error .valueError
  else if w % nTaus df ≠ 0 then .error .valueError
  else .ok (df.rows.map (fun r => swap (w / nTaus df) (chunks (nTaus df) (w / nTaus df) r)))

/-- `np.squeeze` on a shape. -/
def squeezeShape (s : List Nat) : List Nat := s.filter (fun d => d ≠ 1)

/-- `np.atleast_2d` on a shape. -/
def atleast2d : List Nat → List Nat
  | [] => [1, 1]
  | [a] => [1, a]
  | s => s

/-- The shape check of `pd.DataFrame(np.atleast_2d(np.squeeze(preds)), index=x.index,
columns=self.target_cols)` in `QRF.predict`, `randomforests.py` L136-148, where `preds` has shape
`(n, 1, t)` after `np.dstack`. The data order is unaffected by squeezing. -/
def qrfPointFrameShape (n t : Nat) : Except PyErr (Nat × Nat) :=
  if atleast2d (squeezeShape [n, 1, t]) = [n, t] then .ok (n, t) else .error .valueError

end PyF.Reshape
