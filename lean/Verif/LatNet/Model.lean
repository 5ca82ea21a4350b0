import Verif.ICNN.Model

/-!
The latent network: `LatentPICNN_module`, pyforecaster/forecasting_models/neural_models/ICNN.py L167-230, as built by
`LatentStructuredPICNN.set_arch` L679-691, on top of the layers of the component ICNN (layers.py L131-173, ICNN.py L118-164).

Two views: the values without `probabilistic` and with scalar bounds (as in ICNN), and the widths alone, with `probabilistic` and with bounds
`z_min`, `z_max` that are arrays of a common length. The widths are those of a call with the shapes the parameters were made for.
-/

namespace PyF.LatNet

open PyF PyF.ICNN

/-- The arguments of the constructor the module gets, ICNN.py L683-686. -/
structure Args where
  /-- `n_latent` -/
  nLatent : Option ℕ
  /-- `n_out` -/
  nOut : ℕ
  /-- `n_embeddings` -/
  nEmb : ℕ
  /-- `len(optimization_vars)` -/
  nCtrl : ℕ
  /-- `n_hidden_x` -/
  nx : ℕ
  /-- `augment_ctrl_inputs` -/
  aug : Bool

/-- `features_latent_encoder`, L190. -/
def Args.latEnc (a : Args) : ℕ := a.nLatent.getD a.nEmb

/-- `features_latent_decoder`, L191. -/
def Args.latDec (a : Args) : ℕ := a.nLatent.getD a.nCtrl

/-- `features_latent_preds`, L192. -/
def Args.latPred (a : Args) : ℕ := a.nLatent.getD a.nOut

/-- `features_y` of the two networks on the embedding, L195. -/
def Args.embY (a : Args) : ℕ := if a.aug then a.nEmb * 2 else a.nEmb

/-- The encoder, L196-199; `features_y` is `n_hidden_y`, L314. -/
noncomputable def cfgEnc (a : Args) (zb : Option (ℝ × ℝ)) : Cfg := ⟨relu, id, a.aug, a.nCtrl, hiddenY a.aug a.nCtrl, a.nx, a.latEnc, zb⟩

/-- The decoder, L201-204: the bounds of the targets are passed on. -/
noncomputable def cfgDec (a : Args) (zb : Option (ℝ × ℝ)) : Cfg := ⟨relu, relu, a.aug, a.nEmb, a.embY, a.nx, a.latDec, zb⟩

/-- The predictor, L207-210. -/
noncomputable def cfgPred (a : Args) (zb : Option (ℝ × ℝ)) : Cfg := ⟨relu, id, a.aug, a.nEmb, a.embY, a.nx, a.latPred, zb⟩

/-- The layers of the three networks. -/
structure Layers where
  enc : List LayerP
  dec : List LayerP
  pred : List LayerP

/-- `__call__`, L212-219: forecasts, embedding and reconstructed controls. -/
noncomputable def call (a : Args) (zb : Option (ℝ × ℝ)) (l : Layers) (xd : ℕ) (x y : ℕ → ℝ) : Except PyErr ((ℕ → ℝ) × (ℕ → ℝ) × (ℕ → ℝ)) :=
  match apply (cfgEnc a zb) l.enc xd x y with
  | .error e => .error e
  | .ok emb =>
    match apply (cfgPred a zb) l.pred xd x emb with
    | .error e => .error e
    | .ok z =>
      match apply (cfgDec a zb) l.dec xd x emb with
      | .error e => .error e
      | .ok r => .ok (z, emb, r)

/-- `decode`, L221-222. -/
noncomputable def decode (a : Args) (zb : Option (ℝ × ℝ)) (l : Layers) (xd : ℕ) (x emb : ℕ → ℝ) : Except PyErr (ℕ → ℝ) := apply (cfgDec a zb) l.dec xd x emb

/-- The width after `sigmoid(z) * (z_max - z_min) + z_min` with bounds of length `bd`, layers.py L171-172; `none`: no bounds. -/
def boundWidth (bd : Option ℕ) (w : ℕ) : Except PyErr ℕ :=
  match bd with
  | none => .ok w
  | some b => if compat w b then .ok (bdim w b) else .error .typeError

/-- The loop over the layers, ICNN.py L136-146 and L152-160, from a `z` of width `dz`: hidden width `hid`, last width `out`. -/
def loopWidth (lat ny : ℕ) (bd : Option ℕ) (dy hid out : ℕ) : ℕ → ℕ → Except PyErr ℕ
  | 0, dz => .ok dz
  | n + 1, dz =>
    if compat dz lat && compat dy ny then
      (if n = 0 then boundWidth bd out else loopWidth lat ny bd dy hid out n hid)
    else .error .typeError

/-- `PICNN_module.__call__`, ICNN.py L133-164, on controls of width `w`. -/
def moduleWidth (aug prob : Bool) (lat ny out : ℕ) (bd : Option ℕ) (n w : ℕ) : Except PyErr ℕ :=
  let dy := if aug then 2 * w else w
  match loopWidth lat ny bd dy lat out n lat with
  | .error e => .error e
  | .ok z =>
    if prob then
      (match loopWidth lat ny bd dy out out n out with
      | .error e => .error e
      | .ok s => .ok (z + s))
    else .ok z

/-- The widths of the three outputs of `__call__`, L212-219, with numbers of layers `nE`, `nP`, `nD`. -/
def callWidth (a : Args) (prob : Bool) (bd : Option ℕ) (nE nP nD : ℕ) : Except PyErr (ℕ × ℕ × ℕ) :=
  match moduleWidth a.aug prob a.latEnc (hiddenY a.aug a.nCtrl) a.nEmb bd nE a.nCtrl with
  | .error e => .error e
  | .ok w =>
    match moduleWidth a.aug prob a.latPred a.embY a.nOut bd nP w with
    | .error e => .error e
    | .ok z =>
      match moduleWidth a.aug prob a.latDec a.embY a.nCtrl bd nD w with
      | .error e => .error e
      | .ok r => .ok (z, w, r)

end PyF.LatNet
