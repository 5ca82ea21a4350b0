import Verif.Common
import Verif.Split.Model
import Verif.Reshape.Model
import Mathlib.Data.Rat.Defs

/-!
The quantile random forest: pyforecaster/forecasting_models/randomforests.py L11-198 (`QRF`) and the frame built by
`ScenarioGenerator.quantiles_to_df`, pyforecaster/forecaster.py L233-239.

Simplifications: exact rational values; `quantile_forest.RandomForestQuantileRegressor` is an oracle with the documented contract of its `predict`: an array
(rows, outputs, levels) from which the last axis is removed for a single level (and for 'mean'), and then the axis of the outputs for a single output; its `fit`
refuses an empty training set and sample weights of another length than the rows. `dataset_at_stepahead` is an oracle `prune` acting on rows
(see `Verif.Prune`). No target is normalised (`anti_transform` is the identity) and no categorical feature is encoded. The post-fit phase of `ScenarioGenerator.fit` is
not repeated here (see `Verif.Refit` for histories of fits).
-/

namespace PyF.Qrf

open PyF

/-- A numpy array of one, two or three axes: sizes and entries. -/
inductive Arr
  | d1 (n : ℕ) (f : ℕ → ℚ)
  | d2 (n a : ℕ) (f : ℕ → ℕ → ℚ)
  | d3 (n a b : ℕ) (f : ℕ → ℕ → ℕ → ℚ)

/-- An array of three axes. -/
structure A3 where
  n : ℕ
  a : ℕ
  b : ℕ
  f : ℕ → ℕ → ℕ → ℚ

/-- A fitted forest: number of outputs, mean and quantile of an output at a feature row. -/
structure Forest (R : Type) where
  outs : ℕ
  mean : R → ℕ → ℚ
  quant : R → ℕ → ℚ → ℚ

/-- The argument `quantiles` of `RandomForestQuantileRegressor.predict`: 'mean', a list of numbers, a list of characters. -/
inductive FQ
  | mean
  | levels (l : List ℚ)
  | chars

/-- The keyword `quantiles` of `QRF.predict`: a list of levels or the word 'mean'. -/
inductive QK
  | levels (l : List ℚ)
  | word

/-- The keywords of `QRF.predict`, L127. -/
structure Kw (P : Type) where
  quantiles : Option QK := none
  period : Option P := none

/-- The axes removed by `RandomForestQuantileRegressor.predict`. -/
def squeeze (n m q : ℕ) (v : ℕ → ℕ → ℕ → ℚ) : Arr :=
  if q = 1 then
    if m = 1 then .d1 n (fun i => v i 0 0) else .d2 n m (fun i j => v i j 0)
  else if m = 1 then .d2 n q (fun i k => v i 0 k) else .d3 n m q v

/-- `RandomForestQuantileRegressor.predict`. -/
def Forest.predict {R : Type} [Inhabited R] (F : Forest R) (x : List R) (q : FQ) : Except PyErr Arr :=
  match q with
  | .mean => .ok (squeeze x.length F.outs 1 (fun i j _ => F.mean (x.getD i default) j))
  | .levels l => .ok (squeeze x.length F.outs l.length (fun i j k => F.quant (x.getD i default) j (l.getD k 0)))
  | .chars => .error .typeError

/-- `list(kwargs['quantiles']) if 'quantiles' in kwargs else 'mean'`, L140 and L160. -/
def forestArg : Option QK → FQ
  | none => .mean
  | some (.levels l) => .levels l
  | some .word => .chars

/-- `np.expand_dims(p, 1)` of an array with one axis, L161-162 and L167-168. -/
def expand1 : Arr → Arr
  | .d1 n f => .d2 n 1 (fun i _ => f i)
  | .d2 n a f => .d2 n a f
  | .d3 n a b f => .d3 n a b f

/-- `_predict`, L155-163, of the model `F` at the pruned rows. -/
def predSingle {R : Type} [Inhabited R] (F : Forest R) (x : List R) (q : FQ) : Except PyErr Arr :=
  match F.predict x q with
  | .error e => .error e
  | .ok p => .ok (expand1 p)

/-- L169-172: a second `expand_dims` for two axes, otherwise the last two axes are swapped. -/
def expandOrSwap : Arr → Arr
  | .d1 n f => .d1 n f
  | .d2 n a f => .d3 n 1 a (fun i _ k => f i k)
  | .d3 n a b f => .d3 n b a (fun i j k => f i k j)

/-- `predict_multi_step`, L165-173. -/
def predMulti {R : Type} [Inhabited R] (F : Forest R) (x : List R) (q : FQ) : Except PyErr Arr :=
  match F.predict x q with
  | .error e => .error e
  | .ok p => .ok (expandOrSwap (expand1 p))

/-- `np.atleast_3d`. -/
def toA3 : Arr → A3
  | .d1 n f => ⟨1, n, 1, fun _ j _ => f j⟩
  | .d2 n a f => ⟨n, a, 1, fun i j _ => f i j⟩
  | .d3 n a b f => ⟨n, a, b, f⟩

/-- The entries of a concatenation along the last axis. -/
def catF : List A3 → ℕ → ℕ → ℕ → ℚ
  | [], _, _, _ => 0
  | A :: As, i, j, c => if c < A.b then A.f i j c else catF As i j (c - A.b)

/-- `np.dstack`, L141: at least one array, equal sizes along the first two axes. -/
def dstack (l : List Arr) : Except PyErr A3 :=
  match l.map toA3 with
  | [] => .error .valueError
  | A :: As =>
    if As.all (fun B => B.n == A.n && B.a == A.a) then .ok ⟨A.n, A.a, ((A :: As).map A3.b).sum, catF (A :: As)⟩
    else .error .valueError

/-- The result of `predict`: a frame of point forecasts, or a frame with columns (target, level). -/
inductive Out
  | point (n t : ℕ) (f : ℕ → ℕ → ℚ)
  | quant (n t q : ℕ) (f : ℕ → ℕ → ℕ → ℚ)

/-- Row-major entry number `c` of an array. -/
def A3.flat (A : A3) (c : ℕ) : ℚ := A.f (c / (A.a * A.b)) (c / A.b % A.a) (c % A.b)

/-- `pd.DataFrame(np.atleast_2d(np.squeeze(preds)), index=x.index, columns=self.target_cols)`, L144 and L151. -/
def pointFrame (n t : ℕ) (A : A3) : Except PyErr Out :=
  if Reshape.atleast2d (Reshape.squeezeShape [A.n, A.a, A.b]) = [n, t] then .ok (.point n t (fun i j => A.flat (i * t + j)))
  else .error .valueError

/-- L148-149: `np.swapaxes(preds, 1, 2)`, then `quantiles_to_df` (forecaster.py L233-239): a reshape to (rows, rest) under the columns (target, level). -/
def quantFrame (n t q : ℕ) (A : A3) : Except PyErr Out :=
  if A.n = n ∧ A.b * A.a = t * q then
    .ok (.quant n t q (fun i j k => A.f i ((j * q + k) % A.a) ((j * q + k) / A.a)))
  else .error .valueError

/-- Attributes of a fitted object: `models`, `multi_step_model`, `n_multistep`, `len(target_cols)`. -/
structure State (R : Type) where
  models : List (Forest R)
  multi : Option (Forest R)
  nMulti : ℕ
  nTargets : ℕ

/-- Constructor arguments used by `fit` and `predict`. -/
structure Cfg where
  nSingle : ℕ
  parallel : Bool
  valRatio : Option ℚ

/-- The oracles: pruning for a step with a period, training of a forest with a parameter dictionary. -/
structure Env (R P D : Type) where
  prune : ℕ → P → R → R
  period0 : P
  train : D → List R → List (List ℚ) → Option (List ℚ) → Forest R

variable {R P D : Type} [Inhabited R]

/-- One `_predict`, L155-163. -/
def stepPredict (E : Env R P D) (s : State R) (x : List R) (q : FQ) (per : P) (i : ℕ) : Except PyErr Arr :=
  match s.models[i]? with
  | none => .error .indexError
  | some F => predSingle F (x.map (E.prune i per)) q

/-- The single-step predictions, L129-137. A keyword `period` is given twice: by `partial` (parallel mode), or in every call of `_predict`. -/
def singles (E : Env R P D) (c : Cfg) (s : State R) (x : List R) (kw : Kw P) : Except PyErr (List Arr) :=
  match kw.period with
  | none => (List.range c.nSingle).mapM (stepPredict E s x (forestArg kw.quantiles) E.period0)
  | some _ => if c.parallel || decide (0 < c.nSingle) then .error .typeError else .ok []

/-- The prediction of the global model, L139-140. -/
def multis (s : State R) (x : List R) (kw : Kw P) : Except PyErr (List Arr) :=
  if 0 < s.nMulti then
    match s.multi with
    | none => .error .attributeError
    | some F => (predMulti F x (forestArg kw.quantiles)).map (fun p => [p])
  else .ok []

/-- L142-151. -/
def mkFrame (s : State R) (n : ℕ) (kw : Kw P) (A : A3) : Except PyErr Out :=
  match kw.quantiles with
  | none => pointFrame n s.nTargets A
  | some .word => pointFrame n s.nTargets A
  | some (.levels l) => quantFrame n s.nTargets l.length A

/-- `predict`, L127-153. -/
def predict (E : Env R P D) (c : Cfg) (s : State R) (x : List R) (kw : Kw P) : Except PyErr Out :=
  match singles E c s x kw with
  | .error e => .error e
  | .ok ps =>
    match multis s x kw with
    | .error e => .error e
    | .ok qs =>
      match dstack (ps ++ qs) with
      | .error e => .error e
      | .ok A => mkFrame s x.length kw A

/-- `RandomForestQuantileRegressor(**pars).fit(x, y, sample_weight)`. -/
def forestFit (E : Env R P D) (pars : D) (x : List R) (y : List (List ℚ)) (w : Option (List ℚ)) : Except PyErr (Forest R) :=
  if x = [] then .error .valueError
  else
    match w with
    | none => .ok (E.train pars x y none)
    | some l => if l.length = x.length then .ok (E.train pars x y (some l)) else .error .valueError

/-- Target columns `a, …, a + k - 1`. -/
def cols (y : List (List ℚ)) (a k : ℕ) : List (List ℚ) := y.map (fun r => (r.drop a).take k)

/-- `_fit`, L93-99. -/
def fitSingle (E : Env R P D) (pars : D) (t : ℕ) (x : List R) (y : List (List ℚ)) (w : Option (List ℚ)) (i : ℕ) : Except PyErr (Forest R) :=
  if t ≤ i then .error .indexError else forestFit E pars (x.map (E.prune i E.period0)) (cols y i 1) w

/-- The global model, L112-119: the last `n_multistep` columns, no sample weights. -/
def fitMulti (E : Env R P D) (parsG : D) (nSingle t : ℕ) (x : List R) (y : List (List ℚ)) : Except PyErr (Option (Forest R)) :=
  if 0 < t - nSingle then
    match forestFit E parsG x (cols y nSingle (t - nSingle)) none with
    | .error e => .error e
    | .ok F => .ok (some F)
  else .ok none

/-- `fit`, L102-124, of a new object; `t` is the number of target columns. -/
def fit (E : Env R P D) (c : Cfg) (pars parsG : D) (t : ℕ) (x : List R) (y : List (List ℚ)) (w : Option (List ℚ)) : Except PyErr (State R) :=
  match (List.range c.nSingle).mapM (fitSingle E pars t (Split.trainValSplit c.valRatio x y).1 (Split.trainValSplit c.valRatio x y).2.1 w) with
  | .error e => .error e
  | .ok ms =>
    match fitMulti E parsG c.nSingle t (Split.trainValSplit c.valRatio x y).1 (Split.trainValSplit c.valRatio x y).2.1 with
    | .error e => .error e
    | .ok g => .ok ⟨ms, g, t - c.nSingle, t⟩

/-! ### The constructor's dictionaries -/

/-- Values of constructor arguments. -/
inductive Val
  | none
  | num (v : ℚ)
  | str (s : String)
  deriving DecidableEq

/-- The arguments copied under their own name to `qrf_pars`, L72-91. -/
def copied : List String :=
  ["n_estimators", "bootstrap", "oob_score", "n_jobs", "random_state", "verbose", "warm_start", "max_samples", "min_samples_split",
   "min_samples_leaf", "max_samples_leaf", "min_weight_fraction_leaf", "max_features", "max_leaf_nodes", "min_impurity_decrease",
   "criterion", "ccp_alpha"]

/-- `q_vect if q_vect is not None else 'mean'`, L88. -/
def defaultQ : Val → Val
  | .none => .str "mean"
  | v => v

/-- `qrf_pars`, L72-91. -/
def qrfPars (a : String → Val) : List (String × Val) :=
  copied.map (fun k => (k, a k)) ++ [("default_quantiles", defaultQ (a "q_vect"))]

/-- The factor on `n_jobs`, L117-118. -/
def scaleJobs (workers : ℚ) : Val → Val
  | .num v => if 0 < v then .num (v * workers) else .num v
  | v => v

/-- `qrf_pars_global`, L116-118. -/
def globalPars (workers : ℚ) (d : List (String × Val)) : List (String × Val) :=
  d.map (fun p => if p.1 = "n_jobs" then (p.1, scaleJobs workers p.2) else p)

end PyF.Qrf
