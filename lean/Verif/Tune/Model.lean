import Verif.Common
import Verif.Hankel.Model
import Mathlib.Algebra.Order.Field.Rat

/-!
Random search over hyper-parameters: `fit_sample`, `tune_hyperpars` and `score_autoregressive` (pyforecaster/forecasting_models/holtwinters.py L30-132), the part of
`HoltWinters.fit` (L182-186) and `StatefulForecaster.fit` (fast_adaptive_models.py L124-134) that calls them, and `HoltWintersMulti` (holtwinters.py L385-447) as far as
parameters are concerned.

Simplifications: data have no NaN (a score may be NaN: `none`); column names are distinct; rows have one value per column; what a model does in `fit` after the search
and in `predict` are functions of its attributes, its state and the frame; the random numbers of the search are a parameter; the keyword dictionaries consist of
`target_name`, `targets_names`, `optimize_hyperpars` and a dictionary of all others; the processes of the parallel search each work on a copy of the dictionary (the arguments
are pickled for every call). Plots and messages are left out.
-/

namespace PyF.Tune

open PyF

/-- A parameter value. -/
inductive Val where
  | num (q : ℚ)
  | vec (l : List ℚ)
  | other (k : ℕ)
  deriving DecidableEq

/-- A score; `none` is NaN. -/
abbrev Score := Option ℚ

/-- `np.mean` of scores: NaN for an empty list or if one of them is NaN. -/
def meanScore (l : List Score) : Score :=
  if l = [] ∨ none ∈ l then none else some ((l.map (fun s => s.getD 0)).sum / l.length)

variable {N σ : Type} [DecidableEq N]

/-! ### Frames -/

/-- A frame: column names and rows. -/
structure Frame (N : Type) where
  cols : List N
  rows : List (List ℚ)

/-- `x[c].values`; `KeyError` for an unknown name. -/
def Frame.col (x : Frame N) (c : N) : Except PyErr (List ℚ) :=
  if c ∈ x.cols then .ok (x.rows.map (fun r => r.getD (x.cols.idxOf c) 0)) else .error .keyError

/-- `x[names]` for names of columns. -/
def Frame.select (x : Frame N) (names : List N) : Frame N :=
  ⟨names, x.rows.map (fun r => names.map (fun c => r.getD (x.cols.idxOf c) 0))⟩

/-! ### Keyword dictionaries, classes and objects -/

/-- A dictionary of constructor keywords: `target_name` (`none` if missing), `targets_names` (`none` if missing or `None`), `optimize_hyperpars`, and all others. -/
structure Kw (N : Type) where
  targetName : Option N
  targets : Option (List N)
  optimize : Bool
  pars : N → Option Val

/-- `kw.update(trial)`. -/
def Kw.update (kw : Kw N) (trial : List (N × Val)) : Kw N :=
  { kw with pars := trial.foldl (fun d p k => if k = p.1 then some p.2 else d k) kw.pars }

/-- A forecaster class with a search: default of `target_name` (`none`: required), the assertions of the constructor, the initial states, `n_sa`, whether the states are
reset after a search (fast_adaptive_models.py L128; not in `HoltWinters.fit`), `fit` after the search, `predict`. -/
structure Cls (N σ : Type) where
  defaultTarget : Option N
  check : Kw N → Except PyErr Unit
  state0 : Kw N → σ
  nsa : Kw N → ℕ
  reinit : Bool
  fitCore : Kw N → σ → Frame N → Except PyErr σ
  predict : Kw N → σ → Frame N → Except PyErr (List (List ℚ))

/-- A forecaster: attributes, the dictionary `init_pars`, states. -/
structure Obj (N σ : Type) where
  attrs : Kw N
  init : Kw N
  st : σ

/-- `targets_names` after the constructor, holtwinters.py L149-150, fast_adaptive_models.py L82. -/
def normKw (t : N) (kw : Kw N) : Kw N := { kw with targetName := some t, targets := some (kw.targets.getD [t]) }

/-- The constructor, holtwinters.py L135-180, fast_adaptive_models.py L58-98, L157-186: `init_pars` and the attributes hold the same values. -/
def mk (C : Cls N σ) (kw : Kw N) : Except PyErr (Obj N σ) :=
  match kw.targetName.or C.defaultTarget with
  | none => .error .typeError
  | some t =>
    match C.check kw with
    | .error e => .error e
    | .ok _ => .ok ⟨normKw t kw, normKw t kw, C.state0 (normKw t kw)⟩

/-! ### Score of a model -/

/-- Shapes that can be subtracted, holtwinters.py L132: at least `m` forecasts, all with `n` values (numpy broadcasting of single rows or columns is left out). -/
def fits (yhat : List (List ℚ)) (m n : ℕ) : Bool := decide (m ≤ yhat.length) && yhat.all (fun r => decide (r.length = n))

/-- The squared differences of L132; `tgt` is kept by columns. -/
def sqDiffs (yhat tgt : List (List ℚ)) : List ℚ :=
  (tgt.zipIdx.map (fun cg => cg.1.zipIdx.map (fun vi => ((yhat.getD vi.2 []).getD cg.2 0 - vi.1) ^ 2))).flatten

/-- `np.mean`. -/
def meanQ (l : List ℚ) : Score := if l = [] then none else some (l.sum / l.length)

/-- `0.7 * n` in double precision, in units of `2 ^ -52`: 0.7 is stored as `3152519739159347 / 2 ^ 52`, and the product is rounded to 53 bits, ties to even. -/
def mul07 (n : ℕ) : ℕ :=
  let k := 3152519739159347 * n
  let e := Nat.log2 k - 52
  let r := k % 2 ^ e
  (if 2 ^ e < 2 * r ∨ (2 * r = 2 ^ e ∧ k / 2 ^ e % 2 = 1) then k / 2 ^ e + 1 else k / 2 ^ e) * 2 ^ e

/-- `int(tr_ratio*len(x))` with the default ratio, holtwinters.py L120, L122. -/
def ntrain (n : ℕ) : ℕ := mul07 n / 2 ^ 52

/-- `score_autoregressive`, holtwinters.py L120-132, for an object that does not search; `ntr` is `n_training`. -/
def scoreAR (C : Cls N σ) (o : Obj N σ) (x : Frame N) (ntr : ℕ) (target : N) (nsa : ℕ) : Except PyErr Score :=
  let xtr : Frame N := ⟨x.cols, x.rows.take ntr⟩
  let xte : Frame N := ⟨x.cols, x.rows.drop ntr⟩
  match xte.col target with
  | .error e => .error e
  | .ok y =>
    match Hankel.hankel (y.drop 1) nsa none with
    | .error e => .error e
    | .ok tgt =>
      match C.fitCore o.attrs o.st xtr with
      | .error e => .error e
      | .ok st =>
        match C.predict o.attrs st xte with
        | .error e => .error e
        | .ok yhat => if fits yhat (y.length - nsa) nsa then .ok (meanQ (sqDiffs yhat tgt)) else .error .valueError

/-! ### One trial -/

/-- Columns the model of target `c` is given, L40. -/
def featuresFor (cols targets : List N) (c : N) : List N := cols.filter (fun n => !(decide (n ∈ targets) && decide (n ≠ c)))

/-- The dictionary while the model of target `c` is built, L37. -/
def Kw.forTarget (kw : Kw N) (c : N) : Kw N := { kw with targetName := some c, targets := none }

/-- One round of the loop L36-42. -/
def targetScore (C : Cls N σ) (kw : Kw N) (x : Frame N) (targets : List N) (c : N) : Except PyErr Score :=
  match mk C (kw.forTarget c) with
  | .error e => .error e
  | .ok o => scoreAR C o (x.select (featuresFor x.cols targets c)) (ntrain x.rows.length) c (C.nsa o.attrs)

/-- The dictionary after the loop L36-42. -/
def afterTargets (kw : Kw N) (targets : List N) : Kw N := targets.foldl (fun k c => k.forTarget c) kw

/-- `fit_sample` for a class other than the two `Multi` ones, L30-49: the score, if the variable is bound, and the dictionary, which is changed in place. -/
def fitSample (C : Cls N σ) (kw : Kw N) (trial : List (N × Val)) (x : Frame N) : Except PyErr (Option Score × Kw N) :=
  match mk C (kw.update trial) with
  | .error e => .error e
  | .ok o =>
    match kw.targets with
    | some ts =>
      match ts.mapM (targetScore C (kw.update trial) x ts) with
      | .error e => .error e
      | .ok ss => .ok (some (meanScore ss), afterTargets (kw.update trial) ts)
    | none =>
      match C.fitCore o.attrs o.st x with
      | .error e => .error e
      | .ok _ => .ok (none, kw.update trial)

/-- `return score`, L49. -/
def boundScore (r : Except PyErr (Option Score × Kw N)) : Except PyErr (Score × Kw N) :=
  match r with
  | .error e => .error e
  | .ok (none, _) => .error .unboundLocalError
  | .ok (some s, kw) => .ok (s, kw)

/-! ### The search -/

/-- Limits of a hyper-parameter: two numbers or a matrix with two columns. -/
inductive Lim where
  | scalar (lo hi : ℚ)
  | vec (l : List (ℚ × ℚ))

/-- L67-71; `u` are numbers of the generator. -/
def sample (u : ℕ → ℚ) : Lim → Val
  | .scalar lo hi => .num (u 0 * (hi - lo) + lo)
  | .vec l => .vec (l.zipIdx.map (fun p => u p.2 * (p.1.2 - p.1.1) + p.1.1))

/-- One trial, L65-72. -/
def trialOf (hyper : List (N × Lim)) (u : ℕ → ℕ → ℚ) : List (N × Val) := hyper.zipIdx.map (fun h => (h.1.1, sample (u h.2) h.1.2))

/-- `pars_cartridge`, L63-73. -/
def cartridge (hyper : List (N × Lim)) (n : ℕ) (u : ℕ → ℕ → ℕ → ℚ) : List (List (N × Val)) := (List.range n).map (fun i => trialOf hyper (u i))

/-- `a ≤ b` for scores, false with NaN. -/
def sle (a b : Score) : Bool := match a, b with | some p, some q => decide (p ≤ q) | _, _ => false

/-- `np.argmin`, L107: the first NaN if there is one, else the first minimum. -/
def argmin (s : List Score) : Except PyErr ℕ :=
  if s = [] then .error .valueError
  else if none ∈ s then .ok (s.idxOf none)
  else .ok (s.findIdx (fun v => s.all (fun w => sle v w)))

/-- Scores of the parallel search, L82-88: every call gets a copy of the dictionary. -/
def scoresPar (C : Cls N σ) (kw : Kw N) (x : Frame N) (trials : List (List (N × Val))) : Except PyErr (List Score) :=
  trials.mapM (fun t => (boundScore (fitSample C kw t x)).map Prod.fst)

/-- Scores of the sequential search, L89-92: all calls share the dictionary. -/
def scoresSeq (C : Cls N σ) (x : Frame N) : Kw N → List (List (N × Val)) → Except PyErr (List Score × Kw N)
  | kw, [] => .ok ([], kw)
  | kw, t :: ts =>
    match boundScore (fitSample C kw t x) with
    | .error e => .error e
    | .ok (s, kw') =>
      match scoresSeq C x kw' ts with
      | .error e => .error e
      | .ok (ss, kw'') => .ok (s :: ss, kw'')

/-- The scores and the dictionary after the search, L82-92. -/
def scores (C : Cls N σ) (x : Frame N) (kw : Kw N) (trials : List (List (N × Val))) (parallel : Bool) : Except PyErr (List Score × Kw N) :=
  if parallel then (scoresPar C kw x trials).map (fun s => (s, kw)) else scoresSeq C x kw trials

/-- `tune_hyperpars` for a class other than the two `Multi` ones, L75-76, L81-92, L106-111: the model built from the best trial and the dictionary afterwards. -/
def tune (C : Cls N σ) (x : Frame N) (trials : List (List (N × Val))) (parallel : Bool) (kw : Kw N) : Except PyErr (Obj N σ × Kw N) :=
  match scores C x { kw with optimize := false } trials parallel with
  | .error e => .error e
  | .ok (ss, kw1) =>
    match argmin ss with
    | .error e => .error e
    | .ok b =>
      match mk C (kw1.update (trials.getD b [])) with
      | .error e => .error e
      | .ok o => .ok (o, kw1.update (trials.getD b []))

/-- `tune_hyperpars` with `return_model=True`, L112-116. -/
def tuneModel (C : Cls N σ) (x : Frame N) (trials : List (List (N × Val))) (parallel : Bool) (kw : Kw N) : Except PyErr (Obj N σ) :=
  match tune C x trials parallel kw with
  | .error e => .error e
  | .ok (o, kw1) =>
    match (if kw1.targetName.isSome then (match kw.targetName with | some t => .ok { o with attrs := { o.attrs with targetName := some t } } | none => .error .keyError)
      else .ok o : Except PyErr (Obj N σ)) with
    | .error e => .error e
    | .ok o' => (C.fitCore o'.attrs o'.st x).map (fun st => { o' with st := st })

/-! ### Fitting an object -/

/-- `fit`, holtwinters.py L182-212, fast_adaptive_models.py L124-149: with `optimize_hyperpars` a search that starts from `init_pars`, whose result is written to the attributes
(`set_params(**get_params())`, all of them) and to `init_pars`. -/
def fitObj (C : Cls N σ) (trials : List (List (N × Val))) (o : Obj N σ) (x : Frame N) : Except PyErr (Obj N σ) :=
  if o.attrs.optimize then
    match tune C x trials true o.init with
    | .error e => .error e
    | .ok (m, kw) => (C.fitCore m.attrs (if C.reinit then C.state0 m.attrs else o.st) x).map (fun st => ⟨m.attrs, kw, st⟩)
  else (C.fitCore o.attrs o.st x).map (fun st => { o with st := st })

/-- `set_params` for parameters other than the three named ones. -/
def Obj.setPars (o : Obj N σ) (kw : List (N × Val)) : Obj N σ := { o with attrs := o.attrs.update kw }

/-! ### HoltWintersMulti -/

/-- Names of the parameters `HoltWintersMulti.reinit_pars` sets one by one, and of those it copies from itself (periods, q_vect, optimization_budget), L421-424. -/
structure Names (N : Type) where
  alpha : N
  gamma1 : N
  gamma2 : N
  nsa : N
  copied : List N

/-- Keywords of `HoltWintersMulti`, L386-389: `horizons` are the `models_periods`. -/
structure MKw (N : Type) where
  base : Kw N
  horizons : List ℕ
  alphas : Option (List ℚ)
  gammas1 : Option (List ℚ)
  gammas2 : Option (List ℚ)
  optSub : Bool

/-- The value of submodel `i`, default 0.01, L410-412; `IndexError` beyond the end. -/
def nth (l : Option (List ℚ)) (n i : ℕ) : Except PyErr ℚ :=
  match (l.getD (List.replicate n (1 / 100)))[i]? with
  | some v => .ok v
  | none => .error .indexError

/-- Keywords of a submodel with horizon `h`, L421-424. -/
def subKw (nm : Names N) (kw : MKw N) (t : N) (h : ℕ) (a g1 g2 : ℚ) : Kw N :=
  { targetName := some t, targets := some (kw.base.targets.getD [t]), optimize := kw.optSub,
    pars := fun k => if k = nm.alpha then some (.num a) else if k = nm.gamma1 then some (.num g1) else if k = nm.gamma2 then some (.num g2)
      else if k = nm.nsa then some (.num h) else if k ∈ nm.copied then kw.base.pars k else none }

/-- One submodel. -/
def subModel (C : Cls N σ) (nm : Names N) (kw : MKw N) (t : N) (i h : ℕ) : Except PyErr (Obj N σ) :=
  match nth kw.alphas kw.horizons.length i, nth kw.gammas1 kw.horizons.length i, nth kw.gammas2 kw.horizons.length i with
  | .ok a, .ok g1, .ok g2 => mk C (subKw nm kw t h a g1 g2)
  | _, _, _ => .error .indexError

/-- `reinit_pars`, L418-426. -/
def subModels (C : Cls N σ) (nm : Names N) (kw : MKw N) : Except PyErr (List (Obj N σ)) :=
  match kw.base.targetName with
  | none => .error .typeError
  | some t => kw.horizons.zipIdx.mapM (fun h => subModel C nm kw t h.2 h.1)

/-- The number stored under a name. -/
def numOf (o : Obj N σ) (k : N) : ℚ := match o.attrs.pars k with | some (.num q) => q | _ => 0

/-- `best_pars`, L98-102, with `optimize_hyperpars=False` of L75. -/
def bestMulti (nm : Names N) (kw : MKw N) (ms : List (Obj N σ)) : MKw N :=
  { kw with base := { kw.base with optimize := false }, alphas := some (ms.map (fun m => numOf m nm.alpha)),
            gammas1 := some (ms.map (fun m => numOf m nm.gamma1)), gammas2 := some (ms.map (fun m => numOf m nm.gamma2)), optSub := false }

/-- Fit every submodel, L436-440; submodel `i` searches among `trials i`. -/
def fitAll (C : Cls N σ) (trials : ℕ → List (List (N × Val))) (ms : List (Obj N σ)) (x : Frame N) : Except PyErr (List (Obj N σ)) :=
  ms.zipIdx.mapM (fun m => fitObj C (trials m.2) m.1 x)

/-- The search of `HoltWintersMulti`, L430 and L79-80, L98-111: a model with the same keywords is built and fitted, its parameters are read off, and a new model is
built from them. -/
def tuneMulti (C : Cls N σ) (nm : Names N) (trials : ℕ → List (List (N × Val))) (kw : MKw N) (x : Frame N) : Except PyErr (MKw N × List (Obj N σ)) :=
  match subModels C nm kw with
  | .error e => .error e
  | .ok ms0 =>
    match fitAll C trials ms0 x with
    | .error e => .error e
    | .ok ms1 => (subModels C nm (bestMulti nm kw ms1)).map (fun ms => (bestMulti nm kw ms1, ms))

/-- `HoltWintersMulti(**kw).fit(x)`, L396-447, as far as the submodels are concerned: keywords and fitted submodels. -/
def fitMulti (C : Cls N σ) (nm : Names N) (trials : ℕ → List (List (N × Val))) (kw : MKw N) (x : Frame N) : Except PyErr (MKw N × List (Obj N σ)) :=
  if kw.base.optimize then
    match tuneMulti C nm trials kw x with
    | .error e => .error e
    | .ok (kw2, ms) => (fitAll C trials ms x).map (fun r => (kw2, r))
  else
    match subModels C nm kw with
    | .error e => .error e
    | .ok ms => (fitAll C trials ms x).map (fun r => (kw, r))

end PyF.Tune
