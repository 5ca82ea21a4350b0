import Verif.Common
import Mathlib.Algebra.Order.Field.Rat
import Mathlib.Algebra.Order.AbsoluteValue.Basic

/-!
Optimising the controls of the latent network: `LatentStructuredPICNN.optimize`,
pyforecaster/forecasting_models/neural_models/ICNN.py L695-775, with `decode`, `encode`, `latent_pred` L417-434 and
`LatentPICNN_module.__call__` L212-219.

Simplifications: exact rational arithmetic; the three sub-networks, the objective and the optimisers are parameters; one input
row with the same columns and keyword names in all calls, so that `jit` traces `iterate` once, at its first call, and keeps what
the closure saw then: the objective, `vanilla_gd` and the parameters of the network. Normalising and writing back the frame are
those of NNOpt (C138) and left out here: controls are the normalised ones.
-/

namespace PyF.LatOpt

open PyF

/-- The sub-networks for given parameters: by exogenous input, L214-228. -/
structure Net (X U E Z : Type) where
  encode : X → U → E
  decode : X → E → U
  pred : X → E → Z

variable {X U E Z S K P : Type}

/-- Prediction for controls: `__call__`, L212-219, first output. -/
def Net.predict (n : Net X U E Z) (x : X) (u : U) : Z := n.pred x (n.encode x u)

/-- `inverter_optimizer` and the plain gradient step: `step vanilla f` is one update towards smaller `f`, L726-730. -/
structure Opt (E S : Type) where
  init : E → S
  step : Bool → (E → ℚ) → E → S → E × S

/-- `_objective`, L711-713: the user's objective of latent prediction and decoded controls plus the weighted distance `reg`
between an embedding and its reconstruction, L702-709. -/
def objectiveAt (n : Net X U E Z) (reg : E → E → ℚ) (objective : K → Z → U → ℚ) (x : X) (kw : K) (weight : ℚ) (e : E) : ℚ :=
  objective kw (n.pred x e) (n.decode x e) + weight * reg (n.encode x (n.decode x e)) e

/-- What a compiled `iterate` keeps, L717-732: the function minimised (by input, keywords and weight) and `vanilla_gd`. -/
structure Compiled (X E K : Type) where
  value : X → K → ℚ → E → ℚ
  vanilla : Bool

/-- One pass of the loop in `iterate`, L721-731, with the two histories. -/
def pass (o : Opt E S) (vanilla : Bool) (f : E → ℚ) (a : E × S × List E × List ℚ) : E × S × List E × List ℚ :=
  let r := o.step vanilla f a.1 a.2.1
  (r.1, r.2, a.2.2.1 ++ [a.1], a.2.2.2 ++ [f a.1])

/-- What `iterate` returns, L732. -/
structure Block (E : Type) where
  y : E
  value : ℚ
  hist : List E
  values : List ℚ
  lagrangian : ℚ

/-- `iterate`, L718-732: ten passes from the optimiser state given; the state is not returned and the multiplier unchanged. -/
def iterate (o : Opt E S) (c : Compiled X E K) (x : X) (kw : K) (y : E) (s : S) (lagrangian : ℚ) : Block E :=
  let r := (pass o c.vanilla (c.value x kw lagrangian))^[10] (y, s, [], [])
  { y := r.1, value := r.2.2.2.getLastD 0, hist := r.2.2.1, values := r.2.2.2, lagrangian := lagrangian }

/-- State of the loop of `optimize`. -/
structure Run (E Z : Type) where
  y : E
  old : ℚ
  ctrlHist : List E
  solHist : List Z
  lagrangian : ℚ

/-- The loop of `optimize` with `k` rounds left, L746-757. -/
def loop (o : Opt E S) (c : Compiled X E K) (n : Net X U E Z) (x : X) (kw : K) (tol : ℚ) (s : S) : ℕ → Run E Z → Run E Z
  | 0, r => r
  | k + 1, r =>
    let b := iterate o c x kw r.y s r.lagrangian
    if (r.old - b.value) / (|r.old| + 1 / 10 ^ 12) < tol then { r with y := b.y, old := b.value, lagrangian := b.lagrangian }
    else loop o c n x kw tol s k
      { y := b.y, old := b.value, ctrlHist := r.ctrlHist ++ b.hist, solHist := r.solHist ++ b.hist.map (n.pred x), lagrangian := b.lagrangian }

/-- What `optimize` returns, L775: normalised controls, prediction for them, value, embedding and the histories. -/
structure Result (U E Z : Type) where
  ctrl : U
  target : Z
  value : ℚ
  embedding : E
  ctrlHist : List E
  solHist : List Z

/-- Body of `optimize` once `iterate` is there, L734-775; without a round of the loop `i` is unbound, L759. -/
def solve (o : Opt E S) (c : Compiled X E K) (n : Net X U E Z) (x : X) (u : U) (kw : K) (nIter : ℕ) (tol : ℚ) :
    Except PyErr (Result U E Z) :=
  let e0 := n.encode x u
  let s := o.init e0
  let b := iterate o c x kw e0 s 0
  let r := loop o c n x kw tol s (nIter / 10)
    { y := b.y, old := b.value, ctrlHist := b.hist, solHist := b.hist.map (n.pred x), lagrangian := 0 }
  if nIter / 10 = 0 then .error .unboundLocalError
  else .ok { ctrl := n.decode x r.y, target := n.predict x (n.decode x r.y), value := r.old, embedding := r.y,
             ctrlHist := r.ctrlHist, solHist := r.solHist }

/-- A network object: parameters and the compiled `iterate`, `None` at first (base_nn.py L210). -/
structure Obj (P X E K : Type) where
  pars : P
  compiled : Option (Compiled X E K)

/-- One call of `optimize`. -/
structure Call (X U Z K : Type) where
  x : X
  u : U
  objective : K → Z → U → ℚ
  kw : K
  nIter : ℕ
  tol : ℚ
  recompile : Bool
  vanilla : Bool

/-- The `iterate` a call uses, L715-732. -/
def compiledFor (net : P → Net X U E Z) (reg : E → E → ℚ) (ob : Obj P X E K) (q : Call X U Z K) : Compiled X E K :=
  let new : Compiled X E K := { value := fun x kw w e => objectiveAt (net ob.pars) reg q.objective x kw w e, vanilla := q.vanilla }
  if q.recompile then new
  else
    match ob.compiled with
    | none => new
    | some c => c

/-- `optimize`, L695-775: the object afterwards and the result. -/
def optimize (o : Opt E S) (net : P → Net X U E Z) (reg : E → E → ℚ) (ob : Obj P X E K) (q : Call X U Z K) :
    Obj P X E K × Except PyErr (Result U E Z) :=
  let c := compiledFor net reg ob q
  ({ ob with compiled := some c }, solve o c (net ob.pars) q.x q.u q.kw q.nIter q.tol)

/-- What happens to an object: a call of `optimize` or a new training, which replaces the parameters. -/
inductive Event (P X U Z K : Type) where
  | optimize (q : Call X U Z K)
  | train (p : P)

/-- A history of events: object afterwards and the results of the calls. -/
def history (o : Opt E S) (net : P → Net X U E Z) (reg : E → E → ℚ) : Obj P X E K → List (Event P X U Z K) →
    Obj P X E K × List (Except PyErr (Result U E Z))
  | ob, [] => (ob, [])
  | ob, .train p :: es => history o net reg { ob with pars := p } es
  | ob, .optimize q :: es =>
    let r := optimize o net reg ob q
    let t := history o net reg r.1 es
    (t.1, r.2 :: t.2)

end PyF.LatOpt
