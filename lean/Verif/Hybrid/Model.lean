import Verif.Common
import Verif.Split.Model
import Mathlib.Data.Rat.Floor
import Mathlib.Algebra.Order.Field.Rat
import Mathlib.Algebra.BigOperators.Group.List.Basic

/-!
LGBMHybrid and LGBEnergyAware: pyforecaster/forecasting_models/gradientboosters.py L78-155, L175-224.

Simplifications: exact rational arithmetic; LGBMRegressor is an oracle from training samples to a function of a feature row, refusing an empty training set and rows of another
width than the training rows; `dataset_at_stepahead` is an oracle `prune` acting on rows (see `Verif.Prune` for it); the index has no duplicates and no target is
normalised (`anti_transform` is the identity); the rows drawn by `np.random.choice` are a parameter. The column filter on `force_off` is an oracle `off`.
Attributes left behind by a fit that raises are not modelled here (see `Verif.Refit`).
-/

namespace PyF.Hybrid

open PyF

/-- Feature values of a row, or target values of a row. -/
abbrev Row := List ℚ

/-- The oracles. `off i` sets the control columns of a row pruned for step `i` to zero. -/
structure Env where
  train : List (Row × ℚ) → Row → ℚ
  prune : ℕ → Row → Row
  off : ℕ → Row → Row

/-- A fitted LGBMRegressor. -/
structure Reg where
  width : ℕ
  f : Row → ℚ

/-- `LGBMRegressor(**lgb_pars).fit`. -/
def fitReg (E : Env) (s : List (Row × ℚ)) : Except PyErr Reg :=
  match s with
  | [] => .error .valueError
  | p :: _ => .ok ⟨p.1.length, E.train s⟩

/-- `LGBMRegressor.predict` of one row. -/
def predReg (m : Reg) (r : Row) : Except PyErr ℚ := if r.length = m.width then .ok (m.f r) else .error .valueError

/-- Constructor arguments `n_single`, `red_frac_multistep`, `parallel`, `val_ratio`. -/
structure Cfg where
  nSingle : ℕ
  redFrac : ℚ
  parallel : Bool
  valRatio : Option ℚ

/-- Attributes `models`, `multi_step_model`, `n_multistep` and the length of `target_cols`. -/
structure State where
  models : List Reg
  multi : Option Reg
  nMulti : ℕ
  nTargets : ℕ

/-- A new object, L51-53. -/
def fresh : State := ⟨[], none, 0, 0⟩

/-- Column `i` of the targets. -/
def col (y : List Row) (i : ℕ) : List ℚ := y.map (fun r => r.getD i 0)

/-- Training set of the model for step `i`, L86-90. -/
def singleSet (E : Env) (x y : List Row) (i : ℕ) : List (Row × ℚ) := (x.map (E.prune i)).zip (col y i)

/-- The models of the first steps, L83 and L85-90, `fit_single` L120-126; a step beyond the targets is an IndexError. -/
def fitSingles (E : Env) (n nTargets : ℕ) (x y : List Row) : Except PyErr (List Reg) :=
  (List.range n).mapM (fun i => if nTargets ≤ i then .error .indexError else fitReg E (singleSet E x y i))

/-- `n_batch`, L97-98. -/
def nBatch (redFrac : ℚ) (nMulti len : ℕ) : ℕ := ⌊(len : ℚ) * (max 1 (redFrac * nMulti) / nMulti)⌋.toNat

/-- Training set of the global model, L104-110: `draws` are the rows of `rand_idx`. -/
def longSet (nSingle nMulti : ℕ) (x y : List Row) (draws : List (List ℕ)) : List (Row × ℚ) :=
  (List.range nMulti).flatMap (fun (i : ℕ) => (draws.getD i []).map (fun r => (x.getD r [] ++ [(i : ℚ)], (y.getD r []).getD (nSingle + i) 0)))

/-- `predict_single`, L143-145, of one row. -/
def predMulti (g : Option Reg) (i : ℕ) (r : Row) : Except PyErr ℚ :=
  match g with
  | none => .error .attributeError
  | some m => predReg m (r ++ [(i : ℚ)])

/-- The model of step `i` on one row, L131-135. -/
def predSingle (E : Env) (models : List Reg) (i : ℕ) (r : Row) : Except PyErr ℚ :=
  match models[i]? with
  | none => .error .indexError
  | some m => predReg m (E.prune i r)

/-- One row of `predict`, L130-138. -/
def hybridRow (E : Env) (c : Cfg) (st : State) (r : Row) : Except PyErr Row :=
  match (List.range c.nSingle).mapM (fun i => predSingle E st.models i r) with
  | .error e => .error e
  | .ok a =>
    match (List.range st.nMulti).mapM (fun i => predMulti st.multi i r) with
    | .error e => .error e
    | .ok b => .ok (a ++ b)

/-- `predict`, L127-141: the labels must fit. -/
def hybridPredict (E : Env) (c : Cfg) (st : State) (x : List Row) : Except PyErr (List Row) :=
  match x.mapM (hybridRow E c st) with
  | .error e => .error e
  | .ok p => if c.nSingle + st.nMulti = st.nTargets then .ok p else .error .valueError

/-- Errors of a row. -/
def errRow (y p : Row) : Row := List.zipWith (fun a b => a - b) y p

/-- `fit`, L78-118, from the attributes `old`, for targets with `nTargets` columns, with the `predict` of the object; returns the attributes and the errors measured by
`ScenarioGenerator.fit` (forecaster.py L211-218). -/
def hybridFit (predict : Env → Cfg → State → List Row → Except PyErr (List Row)) (E : Env) (c : Cfg) (old : State) (nTargets : ℕ) (x y : List Row) (draws : List (List ℕ)) :
    Except PyErr (State × List Row) :=
  let s := Split.trainValSplit c.valRatio x y
  match fitSingles E c.nSingle nTargets s.1 s.2.1 with
  | .error e => .error e
  | .ok new =>
    let models := if c.parallel then new else old.models ++ new
    let nm := nTargets - c.nSingle
    match (if 0 < nm then (fitReg E (longSet c.nSingle nm s.1 s.2.1 draws)).map some else .ok old.multi) with
    | .error e => .error e
    | .ok g =>
      let st : State := { models := models, multi := g, nMulti := nm, nTargets := nTargets }
      match predict E c st s.2.2.1 with
      | .error e => .error e
      | .ok p => .ok (st, List.zipWith errRow s.2.2.2 p)

/-! LGBEnergyAware -/

/-- Features of step `i` of one row, gradientboosters.py L181-188 and L205-212; `e` is the sum of the unbalances so far. -/
def eaFeat (E : Env) (i : ℕ) (e : ℚ) (r : Row) : Row := E.prune i r ++ (if 0 < i then [e] else [])

/-- ... with the controls switched off, L193-194 and L213-217. -/
def eaOff (E : Env) (i : ℕ) (e : ℚ) (r : Row) : Row := E.off i (E.prune i r) ++ (if 0 < i then [e] else [])

/-- Training loop, L180-196, for `k` more steps from step `i`; `es` are the unbalances of the training rows. The model used for the unbalance is `self.models[i]`. -/
def eaFitLoop (E : Env) (nTargets : ℕ) (x y : List Row) : ℕ → ℕ → List Reg → List ℚ → Except PyErr (List Reg)
  | 0, _, models, _ => .ok models
  | k + 1, i, models, es =>
    if nTargets ≤ i then .error .indexError
    else
      let feats := List.zipWith (eaFeat E i) es x
      match fitReg E (feats.zip (col y i)) with
      | .error e => .error e
      | .ok m =>
        match (models ++ [m])[i]? with
        | none => .error .indexError
        | some u =>
          match feats.mapM (predReg u), (List.zipWith (eaOff E i) es x).mapM (predReg u) with
          | .ok p, .ok q => eaFitLoop E nTargets x y k (i + 1) (models ++ [m]) (List.zipWith (fun e d => e + d) es (List.zipWith (fun b a => b - a) q p))
          | _, _ => .error .valueError

/-- One row of `predict`, L204-221, for `k` more steps from step `i`. -/
def eaRow (E : Env) (models : List Reg) : ℕ → ℕ → ℚ → Row → Except PyErr Row
  | 0, _, _, _ => .ok []
  | k + 1, i, e, r =>
    match models[i]? with
    | none => .error .indexError
    | some m =>
      match predReg m (eaFeat E i e r), predReg m (eaOff E i e r) with
      | .ok p, .ok q =>
        match eaRow E models k (i + 1) (e + (q - p)) r with
        | .error er => .error er
        | .ok rest => .ok (p :: rest)
      | _, _ => .error .valueError

/-- `LGBEnergyAware.predict`, L201-224. -/
def eaPredict (E : Env) (c : Cfg) (st : State) (x : List Row) : Except PyErr (List Row) :=
  match x.mapM (fun r => eaRow E st.models c.nSingle 0 0 r) with
  | .error e => .error e
  | .ok p => if c.nSingle = st.nTargets then .ok p else .error .valueError

/-- `LGBEnergyAware.fit`, L176-199: `super().fit` is `LGBMHybrid.fit`, with the `predict` above. -/
def eaFit (E : Env) (c : Cfg) (old : State) (nTargets : ℕ) (x y : List Row) (draws : List (List ℕ)) : Except PyErr (State × List Row) :=
  let s := Split.trainValSplit c.valRatio x y
  match eaFitLoop E nTargets s.1 s.2.1 c.nSingle 0 old.models (s.1.map (fun _ => 0)) with
  | .error e => .error e
  | .ok models => hybridFit eaPredict E c { old with models := models } nTargets s.2.2.1 s.2.2.2 draws

end PyF.Hybrid
