import Verif.TreeInit.Model
import Verif.TreeBuild.GasModel

/-!
Model of the `gen_tree` methods of the tree builders around the parts modelled elsewhere (`pyforecaster/tree_builders.py` L25-33, L35-65, L250-270): the start
tree, the table of the scenarios of a tree, and the kinds of initial values.

Trees are lists of nodes, labels are positions (`Verif/Scenred/TreeModel.lean`). The tree built for given numbers of nodes (`scenred` or the quantile base tree) is the
parameter `mk`; the numbers of nodes themselves are those of `Verif.TreeInit`. The types of the numbers (the quantile base tree holds integers) are not modelled.
-/

namespace PyF.TreeGen
open PyF Scenred TreeBuild TreeInit

/-- What `gen_tree` returns (and `init_vals` is given): the tree, `tree_scens` by columns, `tree_idxs` by columns, `tree_vals`. -/
structure Out where
  tree : List (Node ℚ)
  scens : List (List ℚ)
  idxs : List (List Int)
  vals : List ℚ
deriving DecidableEq

/-- `np.vstack([tree_vals[idx] for idx in tree_idxs])`, L32, L63, by columns. -/
def table (vals : List ℚ) (cols : List (List Int)) : Except PyErr (List (List ℚ)) := cols.mapM (fun col => takeRows vals (col.map Int.toNat))

/-- L28: the start tree if there is one, else a new one. -/
def chooseTree (mk : List ℕ → Except PyErr (List (Node ℚ))) (prog : Prog) (n T : ℕ) (call own : Option (List ℕ)) (start : Option (List (Node ℚ))) :
    Except PyErr (List (Node ℚ)) :=
  match start with
  | some N => .ok N
  | none =>
    match initNodes prog n T call own with
    | .error e => .error e
    | .ok ns => mk ns

/-- L30-33. -/
def describe (N : List (Node ℚ)) : Except PyErr Out :=
  match retrieve N false with
  | .error e => .error e
  | .ok r =>
    match table (N.map (·.v)) r.1 with
    | .error e => .error e
    | .ok sc => .ok { tree := N, scens := sc, idxs := r.1, vals := N.map (·.v) }

/-- `ScenarioTree.gen_tree`, L26-33. -/
def baseGen (mk : List ℕ → Except PyErr (List (Node ℚ))) (prog : Prog) (n T : ℕ) (call own : Option (List ℕ)) (start : Option (List (Node ℚ))) : Except PyErr Out :=
  match chooseTree mk prog n T call own start with
  | .error e => .error e
  | .ok N => describe N

/-- The argument `init` of the constructors: `'zero'`, `'quantiles'` or any other text. -/
inductive Init
  | zero | quantiles | other
deriving DecidableEq

/-- `init_vals`, L35-65. -/
def initOut {m : ℕ} (init : Init) (T : ℕ) (scens : ℕ → Fin m → ℚ) (o : Out) : Except PyErr Out :=
  match init with
  | .zero =>
    .ok { tree := replaceVar o.tree (o.vals.map (fun _ => 0)), scens := o.scens.map (fun c => c.map (fun _ => 0)), idxs := o.idxs, vals := o.vals.map (fun _ => 0) }
  | .quantiles =>
    match initVals o.tree T scens with
    | .error e => .error e
    | .ok vs =>
      match describe (replaceVar o.tree vs) with
      | .error e => .error e
      | .ok o' => .ok { o' with idxs := o.idxs }
  | .other => .ok o

/-- `QuantileTree.gen_tree`, L265-270: the kind of initial values is fixed by the constructor, L262-263. -/
def quantileTree {m : ℕ} (prog : Prog) (T : ℕ) (scens : ℕ → Fin m → ℚ) (call own : Option (List ℕ)) (start : Option (List (Node ℚ))) : Except PyErr Out :=
  match baseGen genTree prog m T call own start with
  | .error e => .error e
  | .ok o => initOut .quantiles T scens o

/-- `ScenredTree.gen_tree`, L254-258: the start tree is an argument, and `None` is passed on. -/
def scenredTree (mk : List ℕ → Except PyErr (List (Node ℚ))) (prog : Prog) (n T : ℕ) (call own : Option (List ℕ)) (_start : Option (List (Node ℚ))) : Except PyErr Out :=
  baseGen mk prog n T call own none

end PyF.TreeGen
