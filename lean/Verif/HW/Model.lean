import Verif.Common
import Verif.Hankel.Model
import Mathlib.Data.Rat.Floor
import Mathlib.Algebra.Order.Field.Rat

/-!
Model of `HoltWinters` (`pyforecaster/forecasting_models/holtwinters.py` L134-383). Numbers are rationals, NaN is `none`,
and arithmetic with NaN gives NaN. The attributes `a`, `b`, `s1`, `s2` equal to `None` are treated by the code (L321-324)
exactly as NaN ones and are both represented by `none`; an unset seasonal array is an all-`none` list of its length. Both
periods are at least 1. Hyper-parameter search is not modelled.
-/

namespace PyF.HW

/-- A float that may be NaN. -/
abbrev V := Option ℚ

def vadd (x y : V) : V := match x, y with | some a, some b => some (a + b) | _, _ => none
def vsub (x y : V) : V := match x, y with | some a, some b => some (a - b) | _, _ => none
/-- Product with a parameter; `0 * NaN` is NaN. -/
def cmul (c : ℚ) (x : V) : V := x.map (fun a => c * a)

/-- What is fixed at construction: periods, horizon, `constraints` (`none` for an infinite bound), and the conversion done
when a number is stored in the seasonal arrays: `id` for float arrays, truncation for integer ones (L323-324: the arrays
take the type of the target column, numba casts on assignment). -/
structure Cfg where
  p1 : Nat
  p2 : Nat
  nsa : Nat
  lo : Option ℚ
  hi : Option ℚ
  store : ℚ → ℚ

/-- Smoothing parameters. -/
structure Pars where
  alpha : ℚ
  beta : ℚ
  g1 : ℚ
  g2 : ℚ

/-- States, L163-167. -/
structure St where
  a : V
  b : V
  s1 : List V
  s2 : List V
  deriving DecidableEq

/-- Float to integer conversion on assignment: truncation toward zero. -/
def trunc (x : ℚ) : ℚ := if 0 ≤ x then (⌊x⌋ : ℚ) else (⌈x⌉ : ℚ)

/-- `constrainify`, L379-382: `minimum(maximum(lo, x), hi)`. -/
def clip (c : Cfg) (x : ℚ) : ℚ :=
  let m := match c.lo with | some l => max l x | none => x
  match c.hi with | some h => min m h | none => m

/-- The forecasts of one row, L373-374. -/
def forecasts (c : Cfg) (st : St) : List V :=
  (List.range c.nsa).map (fun (i : Nat) => vadd (vadd (vadd st.a (cmul ((i : ℚ) + 1) st.b)) ((st.s1[i % c.p1]?).join)) ((st.s2[i % c.p2]?).join))

/-- One pass of the loop, L352-372. The two branches of L353-360 compute the same, because `y_tot[j, 0]` still holds
`Y[j]` (L338) when it is read. -/
def step (c : Cfg) (p : Pars) (st : St) (y : V) : St :=
  let h1 := (st.s1.head?).join
  let h2 := (st.s2.head?).join
  let a := vadd (cmul p.alpha (vsub (vsub y h1) h2)) (cmul (1 - p.alpha) (vadd st.a st.b))
  let s1 := vadd (cmul p.g1 (vsub (vsub y a) h2)) (cmul (1 - p.g1) h1)
  let s2 := vadd (cmul p.g2 (vsub (vsub y a) h1)) (cmul (1 - p.g2) h2)
  let b := vadd (cmul p.beta (vsub a st.a)) (cmul (1 - p.beta) st.b)
  { a := a, b := b,
    s1 := st.s1.tail ++ [s1.map (fun x => c.store (clip c x))],
    s2 := st.s2.tail ++ [s2.map (fun x => c.store (clip c x))] }

/-- The loop of `run`, L350-376: final state and one row of forecasts per observation. -/
def runLoop (c : Cfg) (p : Pars) : St → List V → St × List (List V)
  | st, [] => (st, [])
  | st, y :: ys =>
    let st' := step c p st y
    let r := runLoop c p st' ys
    (r.1, forecasts c st' :: r.2)

/-- The seasonal array used by a call, L323-324. -/
def seasonInit (p : Nat) (s : List V) (last : V) : List V :=
  if s.all (fun v => v.isNone) then List.replicate p last else s

/-- The states a call starts from, L321-324. -/
def start (c : Cfg) (st : St) (last : V) : St :=
  { a := some (st.a.getD 0), b := some (st.b.getD 0), s1 := seasonInit c.p1 st.s1 last, s2 := seasonInit c.p2 st.s2 last }

/-- `_run`, L315-340. `Y[-1]` of an empty input raises `IndexError`. -/
def run (c : Cfg) (p : Pars) (st : St) (Y : List V) : Except PyErr (St × List (List V)) :=
  match Y.getLast? with
  | none => if st.s1.all (fun v => v.isNone) || st.s2.all (fun v => v.isNone) then .error .indexError
            else .ok (start c st none, [])
  | some l => .ok (runLoop c p (start c st l) Y)

/-- `predict` on a frame with the target column only, L214-243: trend smoothing 0, states kept (L225-232). -/
def predict (c : Cfg) (p : Pars) (st : St) (Y : List V) : Except PyErr (St × List (List V)) :=
  if Y = [] then .error .valueError else run c { p with beta := 0 } st Y

/-- `reinit`, L293-313: twenty passes over the last `max(periods)` samples. -/
def reinit (c : Cfg) (p : Pars) (st : St) (y : List V) : Nat → Except PyErr St
  | 0 => .ok st
  | n + 1 =>
    match run c p st (y.drop (y.length - max c.p1 c.p2)) with
    | .error e => .error e
    | .ok (st', _) => reinit c p st' y n

/-- The states of a new object, L163-167. -/
def fresh (c : Cfg) : St := { a := none, b := none, s1 := List.replicate c.p1 none, s2 := List.replicate c.p2 none }

/-- The states after `fit`, L182-212: a run over the training data from the present states, then `reinit`. -/
def fitState (c : Cfg) (p : Pars) (st : St) (y : List V) : Except PyErr St :=
  match run c p st y with
  | .error e => .error e
  | .ok (st', _) => reinit c p st' y 20

end PyF.HW
