import Verif.ICNN.Model

/-!
The parameters of a new network: `positive_lecun` (neural_models/neural_utils.py L12-22) and the kernels and biases flax creates for a `PICNNLayer` (neural_models/layers.py L149-155,
L166). The random numbers are parameters. The other kernels are flax's `lecun_normal`, of which nothing is used; biases are zero.
-/

namespace PyF.ICNN
open PyF

/-- The random numbers of a new network by layer and position: standard normal, uniform on [0, 1], and those of `lecun_normal` by layer, name and position. -/
structure InitDraws where
  normal : ℕ → Name → ℕ → ℕ → ℝ
  unif : ℕ → Name → ℕ → ℕ → ℝ
  lecun : ℕ → Name → ℕ → ℕ → ℝ

/-- `positive_lecun(key, (n_in, n_out), init_type=ty)`, neural_utils.py L12-22: `shape[1]` is the number of outputs. -/
noncomputable def positiveLecun (nOut : ℕ) (ty : String) (normal unif : ℕ → ℕ → ℝ) : Except PyErr (ℕ → ℕ → ℝ) :=
  let stddev := 1 / Real.sqrt nOut
  if ty = "normal" then .ok (fun i j => |normal i j * stddev| / 10)
  else if ty = "uniform" then .ok (fun i j => |unif i j * stddev| / 10)
  else .error .notImplementedError

/-- The sub-dictionary of a new `PICNNLayer`, layers.py L149-155 and L166: `wy` is positive unless `rec_activation` is the identity. `last` is `prediction_layer`. -/
noncomputable def newLayer (E : InitDraws) (l : ℕ) (recId : Bool) (ty : String) (nOut : ℕ) (last : Bool) : Except PyErr LayerPars :=
  let plain (n : Name) : Dense := ⟨E.lecun l n, fun _ => 0⟩
  match positiveLecun nOut ty (E.normal l sWz) (E.unif l sWz) with
  | .error e => .error e
  | .ok kz =>
    match (if recId then .ok (E.lecun l sWy) else positiveLecun nOut ty (E.normal l sWy) (E.unif l sWy)) with
    | .error e => .error e
    | .ok ky =>
      .ok ([(sWzu, plain sWzu), (sWyu, plain sWyu), (sWz, ⟨kz, fun _ => 0⟩), (sWy, ⟨ky, fun _ => 0⟩), (sWuz, plain sWuz)] ++ (if last then [] else [(sUd, plain sUd)]))

/-- The dictionary of a new `PICNN_module` with `n` layers from number `a` on, ICNN.py L136-146: hidden layers have `lat` outputs, the last one `nOut`. -/
noncomputable def newNet (E : InitDraws) (recId : Bool) (ty : String) (lat nOut : ℕ) : ℕ → ℕ → Except PyErr Tree
  | _, 0 => .ok []
  | a, n + 1 =>
    match newLayer E a recId ty (if n = 0 then nOut else lat) (n == 0) with
    | .error e => .error e
    | .ok ps =>
      match newNet E recId ty lat nOut (a + 1) n with
      | .error e => .error e
      | .ok t => .ok ((layerName a, .layer ps) :: t)

end PyF.ICNN
