import Verif.Common
import Mathlib.Data.Real.Basic
import Mathlib.Algebra.BigOperators.Group.Finset.Basic
import Mathlib.Analysis.SpecialFunctions.Log.Basic
import Mathlib.Analysis.SpecialFunctions.Sigmoid
import Mathlib.Analysis.Calculus.Deriv.Basic
import Mathlib.Data.List.Infix

/-!
Partially input-convex networks and the projection of their weights:
pyforecaster/forecasting_models/neural_models/{layers.py, ICNN.py, neural_utils.py}.

Simplifications: arithmetic is exact over the reals; a vector is a function on the naturals together with an explicit dimension (components past the dimension
are never read); the parameter dictionary has the two shapes flax produces for these modules (layer, or module of layers); layer normalisation is left out (no
class passes `layer_normalization` on to its module, so it is always off); the bounds `z_min`, `z_max` are scalars.
-/

namespace PyF.ICNN

open PyF

/-- Names in the parameter dictionary. -/
abbrev Name := List Char

/-- The name `PICNNLayer`. -/
def sPicnn : Name := "PICNNLayer".toList

/-- The name `monotone`. -/
def sMonotone : Name := "monotone".toList

/-- The name `wz`. -/
def sWz : Name := "wz".toList

/-- The name `wy`. -/
def sWy : Name := "wy".toList

/-- The name `wzu`. -/
def sWzu : Name := "wzu".toList

/-- The name `wyu`. -/
def sWyu : Name := "wyu".toList

/-- The name `wuz`. -/
def sWuz : Name := "wuz".toList

/-- The name `u_dense`. -/
def sUd : Name := "u_dense".toList

/-- The parameters of a dense layer: `kernel` of shape (in, out) and `bias`. -/
structure Dense where
  kernel : ℕ → ℕ → ℝ
  bias : ℕ → ℝ

/-- The sub-dictionary of one `PICNNLayer` (keys wzu, wyu, wz, wy, wuz, u_dense). -/
abbrev LayerPars := List (Name × Dense)

/-- The value of one entry of `params['params']`: a layer, or a module whose entries are layers (LatentPICNN_module, ICNN.py L196-210). -/
inductive Node
  | layer (ps : LayerPars)
  | sub (ls : List (Name × LayerPars))

/-- `params['params']`. -/
abbrev Tree := List (Name × Node)

/-- `sub in name` on strings. -/
def contains (sub name : Name) : Bool := decide (sub <:+: name)

/-- `jnp.maximum(0, kernel)`. -/
def clampD (d : Dense) : Dense := ⟨fun i j => max 0 (d.kernel i j), d.bias⟩

/-- `d[key] = f(d[key])` for a key that may be absent. -/
def modify {α : Type} (key : Name) (f : α → α) (d : List (Name × α)) : List (Name × α) :=
  d.map (fun e => if e.1 = key then (e.1, f e.2) else e)

/-- `_reproject`, neural_utils.py L40-48, on the layer called `lname`. -/
def reprojectLayer (recStable monotone : Bool) (lname : Name) (ps : LayerPars) : Except PyErr LayerPars :=
  if contains sMonotone lname || monotone then
    .ok (modify sWy clampD (modify sWz clampD ps))
  else
    match ps.lookup sWz with
    | none => .error .keyError
    | some _ =>
      if recStable then
        match ps.lookup sWy with
        | none => .error .keyError
        | some _ => .ok (modify sWy clampD (modify sWz clampD ps))
      else .ok (modify sWz clampD ps)

/-- The inner loop, neural_utils.py L35-36. -/
def reprojectSub (recStable monotone : Bool) : List (Name × LayerPars) → Except PyErr (List (Name × LayerPars))
  | [] => .ok []
  | (n, ps) :: ls =>
    match reprojectLayer recStable monotone n ps with
    | .error e => .error e
    | .ok ps' =>
      match reprojectSub recStable monotone ls with
      | .error e => .error e
      | .ok ls' => .ok ((n, ps') :: ls')

/-- One step of the outer loop, neural_utils.py L30-36. A module without layers and a layer with the key `wz` are told apart by the keys. -/
def reprojectNode (recStable monotone : Bool) (name : Name) (nd : Node) : Except PyErr Node :=
  if contains sPicnn name then
    match nd with
    | .layer ps =>
      match reprojectLayer recStable (monotone || contains sMonotone name) name ps with
      | .error e => .error e
      | .ok ps' => .ok (.layer ps')
    | .sub ls =>
      match reprojectSub recStable (monotone || contains sMonotone name) ls with
      | .error e => .error e
      | .ok ls' => .ok (.sub ls')
  else .ok nd

/-- `reproject_weights`, neural_utils.py L28-38. -/
def reproject (recStable monotone : Bool) : Tree → Except PyErr Tree
  | [] => .ok []
  | (n, nd) :: t =>
    match reprojectNode recStable monotone n nd with
    | .error e => .error e
    | .ok nd' =>
      match reproject recStable monotone t with
      | .error e => .error e
      | .ok t' => .ok ((n, nd') :: t')

/-- `nn.relu`. -/
noncomputable def relu (v : ℝ) : ℝ := max v 0

/-- `nn.softplus`. -/
noncomputable def softplus (v : ℝ) : ℝ := Real.log (1 + Real.exp v)

/-- `nn.Dense(...)(x)` for an input of dimension `n`. -/
noncomputable def dense (n : ℕ) (d : Dense) (x : ℕ → ℝ) (j : ℕ) : ℝ := (∑ i ∈ Finset.range n, x i * d.kernel i j) + d.bias j

/-- `nn.Dense(..., use_bias=False)(x)`. -/
noncomputable def denseNoBias (n : ℕ) (d : Dense) (x : ℕ → ℝ) (j : ℕ) : ℝ := ∑ i ∈ Finset.range n, x i * d.kernel i j

/-- The parameters of one layer, read from its sub-dictionary. -/
structure LayerP where
  wzu : Dense
  wyu : Dense
  wz : Dense
  wy : Dense
  wuz : Dense
  ud : Dense

/-- The fields of `PICNNLayer` / `PICNN_module`, layers.py L131-143, ICNN.py L118-131, and the number of controls. -/
structure Cfg where
  act : ℝ → ℝ
  recAct : ℝ → ℝ
  aug : Bool
  /-- number of control variables -/
  nc : ℕ
  /-- features_y -/
  ny : ℕ
  /-- features_x -/
  nx : ℕ
  /-- features_latent -/
  lat : ℕ
  /-- z_min, z_max -/
  zb : Option (ℝ × ℝ)

/-- `jnp.hstack([y, -y])` under `augment_ctrl_inputs`, layers.py L146-147. -/
def augY (c : Cfg) (y : ℕ → ℝ) (i : ℕ) : ℝ := if c.aug then (if i < c.nc then y i else - y (i - c.nc)) else y i

/-- The dimension of the control vector inside the layer. -/
def yDim (c : Cfg) : ℕ := if c.aug then 2 * c.nc else c.nc

/-- Index of an operand of dimension `d` in a broadcast elementwise product. -/
def bidx (d i : ℕ) : ℕ := if d = 1 then 0 else i

/-- Dimension of a broadcast elementwise product. -/
def bdim (a b : ℕ) : ℕ := if a = 1 then b else a

/-- Whether two vectors can be multiplied elementwise. -/
def compat (a b : ℕ) : Bool := a == b || a == 1 || b == 1

/-- `z_add + y_add + u_add`, layers.py L151-163: `u` has dimension `nu`, `z` has dimension `dz`. -/
noncomputable def pre (c : Cfg) (p : LayerP) (nu : ℕ) (u : ℕ → ℝ) (dz : ℕ) (z y : ℕ → ℝ) (j : ℕ) : ℝ :=
  denseNoBias (bdim dz c.lat) p.wz (fun i => z (bidx dz i) * relu (dense nu p.wzu u (bidx c.lat i))) j
    + denseNoBias (bdim (yDim c) c.ny) p.wy (fun i => augY c y (bidx (yDim c) i) * c.recAct (dense nu p.wyu u (bidx c.ny i))) j
    + dense nu p.wuz u j

/-- `nn.sigmoid(z) * (z_max - z_min) + z_min`, layers.py L171-172. -/
noncomputable def bound (zb : Option (ℝ × ℝ)) (v : ℝ) : ℝ :=
  match zb with
  | none => v
  | some (lo, hi) => Real.sigmoid v * (hi - lo) + lo

/-- The loop over the layers, ICNN.py L136-146 (`hid` is the `features_out` of the layers before the last one). -/
noncomputable def forward (c : Cfg) (hid : ℕ) : List LayerP → ℕ → (ℕ → ℝ) → ℕ → (ℕ → ℝ) → (ℕ → ℝ) → ℕ → ℝ
  | [], _, _, _, z, _ => z
  | [p], nu, u, dz, z, y => fun j => bound c.zb (pre c p nu u dz z y j)
  | p :: q :: ps, nu, u, dz, z, y =>
    forward c hid (q :: ps) c.nx (fun j => c.act (dense nu p.ud u j)) hid (fun j => c.act (pre c p nu u dz z y j)) y

/-- The shapes met in the loop can be multiplied: every layer multiplies `z` by `wzu` (features_latent) and the controls by `wyu` (features_y). -/
def shapesOk (c : Cfg) (hid : ℕ) : ℕ → ℕ → Bool
  | 0, _ => true
  | n + 1, dz => compat dz c.lat && compat (yDim c) c.ny && shapesOk c hid n hid

/-- `PICNN_module.__call__` without the sigma branch, ICNN.py L133-146, L164. `xd` is the dimension of `x`. -/
noncomputable def apply (c : Cfg) (lays : List LayerP) (xd : ℕ) (x y : ℕ → ℝ) : Except PyErr (ℕ → ℝ) :=
  if shapesOk c c.lat lays.length c.lat then .ok (forward c c.lat lays xd x c.lat (fun _ => 1) y) else .error .typeError

/-- `PICNN_module.__call__` with `probabilistic=True`, ICNN.py L133-163; `sl` is `sigma_len`. The output is `hstack([z, sigma])`. -/
noncomputable def applyProb (c : Cfg) (nOut sl : ℕ) (lays sigs : List LayerP) (xd : ℕ) (x y : ℕ → ℝ) : Except PyErr (ℕ → ℝ) :=
  match apply c lays xd x y with
  | .error e => .error e
  | .ok z =>
    if shapesOk c sl sigs.length sl then
      .ok (fun j => if j < nOut then z j else softplus (forward c sl sigs xd x sl (fun _ => 0) y (j - nOut)) + (10 : ℝ)⁻¹ ^ 10)
    else .error .typeError

/-- The parameters of one layer of the dictionary. -/
def readLayer (ps : LayerPars) : Option LayerP := do
  let wzu ← ps.lookup sWzu
  let wyu ← ps.lookup sWyu
  let wz ← ps.lookup sWz
  let wy ← ps.lookup sWy
  let wuz ← ps.lookup sWuz
  let ud := (ps.lookup sUd).getD ⟨fun _ _ => 0, fun _ => 0⟩
  return ⟨wzu, wyu, wz, wy, wuz, ud⟩

/-- The name flax gives to the i-th `PICNNLayer` of a compact module. -/
def layerName (i : ℕ) : Name := "PICNNLayer_".toList ++ Nat.toDigits 10 i

/-- The layer called `PICNNLayer_i` of a top-level module. -/
def nodeLayer : Node → Option LayerP
  | .layer ps => readLayer ps
  | .sub _ => none

/-- The layers `PICNNLayer_a, …, PICNNLayer_(a+n-1)` of the dictionary of a top-level module. -/
def readNet (t : Tree) (a : ℕ) : ℕ → Option (List LayerP)
  | 0 => some []
  | n + 1 =>
    match t.lookup (layerName a) with
    | none => none
    | some nd =>
      match nodeLayer nd with
      | none => none
      | some p =>
        match readNet t (a + 1) n with
        | none => none
        | some ps => some (p :: ps)

/-- The layers of a named sub-module (encoder, decoder, predictor of LatentPICNN_module, ICNN.py L196-210). -/
def readSubNet (ls : List (Name × LayerPars)) (a : ℕ) : ℕ → Option (List LayerP)
  | 0 => some []
  | n + 1 =>
    match ls.lookup (layerName a) with
    | none => none
    | some ps =>
      match readLayer ps with
      | none => none
      | some p =>
        match readSubNet ls (a + 1) n with
        | none => none
        | some qs => some (p :: qs)

/-- `n_hidden_y` set by the constructor, ICNN.py L314. -/
def hiddenY (augArg : Bool) (nOpt : ℕ) : ℕ := if augArg then 2 * nOpt else nOpt

/-- The module built by `PICNN.set_arch`, ICNN.py L327-330 (relu, identity). -/
noncomputable def cfgPICNN (augArg : Bool) (nOpt nx lat : ℕ) (zb : Option (ℝ × ℝ)) : Cfg := ⟨relu, id, augArg, nOpt, hiddenY augArg nOpt, nx, lat, zb⟩

/-- The module built by `RecStablePICNN.set_arch`, ICNN.py L531-534: `augment_ctrl_inputs` is not passed on. -/
noncomputable def cfgRecStable (augArg : Bool) (nOpt nx lat : ℕ) (zb : Option (ℝ × ℝ)) : Cfg := ⟨relu, id, false, nOpt, hiddenY augArg nOpt, nx, lat, zb⟩

/-- The module built by `PIQCNNSigmoid.set_arch` and `StructuredPICNN.set_arch`, ICNN.py L499-503, L569-573 (sigmoid, sigmoid). -/
noncomputable def cfgSigmoid (augArg : Bool) (nOpt nx lat : ℕ) (zb : Option (ℝ × ℝ)) : Cfg := ⟨Real.sigmoid, Real.sigmoid, augArg, nOpt, hiddenY augArg nOpt, nx, lat, zb⟩

/-- The convex sub-network of `PartiallyIQCNN_module`, ICNN.py L246-257 (softplus, identity; `features_out` everywhere). -/
noncomputable def cfgPIQ (augArg : Bool) (nOpt nx lat : ℕ) (zb : Option (ℝ × ℝ)) : Cfg := ⟨softplus, id, augArg, nOpt, hiddenY augArg nOpt, nx, lat, zb⟩

/-- `jvp(f, (y,), (v,))[1]`: the derivative of `f` at `y` along `v`, one output component. -/
noncomputable def jvp (f : (ℕ → ℝ) → ℝ) (y v : ℕ → ℝ) : ℝ := deriv (fun t : ℝ => f (fun i => y i + t * v i)) 0

/-- `PartiallyIQCNN_module.__call__`, ICNN.py L259-267, without `probabilistic`; `ex` is the output of the feed-forward part, which only reads `x`. -/
noncomputable def applyPIQ (c : Cfg) (nOut : ℕ) (lays : List LayerP) (ex : (ℕ → ℝ) → ℕ → ℝ) (xd : ℕ) (x y : ℕ → ℝ) : Except PyErr (ℕ → ℝ) :=
  if shapesOk c nOut lays.length nOut then
    .ok (fun j => |jvp (fun y' => forward c nOut lays xd x nOut (fun _ => 1) y' j) y y| + ex x j)
  else .error .typeError

/-- `LatentPICNN_module.__call__`, ICNN.py L212-219, first output: the predictor applied to the embedding of the controls. -/
noncomputable def applyLatent (cEnc cPred : Cfg) (enc pred : List LayerP) (xd : ℕ) (x y : ℕ → ℝ) : Except PyErr (ℕ → ℝ) :=
  match apply cEnc enc xd x y with
  | .error e => .error e
  | .ok e => apply cPred pred xd x e

end PyF.ICNN
