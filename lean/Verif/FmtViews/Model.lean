import Verif.Prune.Model

/-!
Model of `Formatter.plot_dataset_at_stepahead` (`pyforecaster/formatter.py` L528-550) and
`Formatter.rename_features_prediction_time` (L553-576). A plot is the list of the bars it draws. The metadata of a
transformer that has not transformed anything is `None`.
-/

namespace PyF.FmtViews
open PyF PyF.Names PyF.Transform PyF.Prune

variable {C : Type}

/-- One bar, L546: its legend and the two ends. -/
structure Bar where
  label : Str
  left : Int
  right : Int
deriving DecidableEq

/-- `prune_dataset_at_stepahead` with the argument `metadata_features` as given: with `None` the sum of L525 is a
`TypeError`, after the errors of the lines before. -/
def pruneArg (df : List (Str × C)) (targets feats : List (List Meta)) (k : Nat) (mf : Option (List Str)) (meth : Method)
    (nLags secs : Int) : Except PyErr (List (Str × C)) :=
  match mf with
  | some m => prune df targets feats k m meth nLags secs
  | none =>
    match targetRows k targets with
    | .error e => .error e
    | .ok [] => .error .indexError
    | .ok (_ :: _) => if feats = [] then .error .valueError else .error .typeError

/-- `metadata['name'].unique()`, L543: in order of first appearance. -/
def uniqueNames : List Str → List Str
  | [] => []
  | a :: l => a :: (uniqueNames l).filter (fun b => b ≠ a)

/-- `metadata_filt`, L544: the rows of variable `v` taken by the columns of `x_i`; `KeyError` for a column that is not a row
of this variable. Rows are taken in the order of the columns. -/
def rowsOf (ms : List Meta) (v : Str) : List Str → Except PyErr (List Meta)
  | [] => .ok []
  | c :: cs =>
    match ms.filter (fun m => m.var = v ∧ m.col = c) with
    | [] => .error .keyError
    | hit =>
      match rowsOf ms v cs with
      | .error e => .error e
      | .ok r => .ok (hit ++ r)

/-- The loop over the variables, L543-546. -/
def barsOf (ms : List Meta) (cols : List Str) : List Str → Except PyErr (List Bar)
  | [] => .ok []
  | v :: vs =>
    match rowsOf ms v cols with
    | .error e => .error e
    | .ok rows =>
      match barsOf ms cols vs with
      | .error e => .error e
      | .ok bs => .ok (rows.map (fun m => { label := v, left := m.start, right := m.stop }) ++ bs)

/-- The loop over the targets, L535-550. -/
def frames (df : List (Str × C)) (targets feats : List (List Meta)) (mf : Option (List Str)) (meth : Method)
    (nLags secs : Int) : List Nat → Except PyErr (List (List Bar))
  | [] => .ok []
  | k :: ks =>
    match pruneArg df targets feats k mf meth nLags secs with
    | .error e => .error e
    | .ok x =>
      match barsOf feats.flatten (x.map Prod.fst) (uniqueNames (feats.flatten.map Meta.var)) with
      | .error e => .error e
      | .ok bs =>
        match frames df targets feats mf meth nLags secs ks with
        | .error e => .error e
        | .ok r => .ok (bs :: r)

/-- `plot_dataset_at_stepahead`, L528-550, on a formatter whose transformers have metadata; `pd.concat([])` is a
`ValueError`, L531. -/
def plotDataset (df : List (Str × C)) (targets feats : List (List Meta)) (mf : Option (List Str)) (meth : Method)
    (nLags secs : Int) : Except PyErr (List (List Bar)) :=
  if feats = [] then .error .valueError
  else frames df targets feats mf meth nLags secs (List.range (targets.map List.length).sum)

/-- The columns of `Transformer.metadata`, L816-843, in both branches. -/
def metaColumns : List Str :=
  ["lag".toList, "function".toList, "aggregation_time".toList, "spacing_time".toList, "start_time".toList, "end_time".toList,
    "name".toList, "relative_lags".toList]

/-- `pd.concat([t.metadata for t in ...])`: `None` entries are dropped; `ValueError` if nothing is left. -/
def concatMeta (ms : List (Option (List Meta))) : Except PyErr (List Meta) :=
  if ms.filterMap id = [] then .error .valueError else .ok (ms.filterMap id).flatten

/-- `metadata[col]`: only its existence matters. -/
def column (col : Str) : Except PyErr Unit := if col ∈ metaColumns then .ok () else .error .keyError

/-- `rename_features_prediction_time(x, sa)`, L553-576: the names of the columns afterwards. `newName` stands for the
formatting of L567-569. -/
def rename (newName : Meta → Str) (feats targets : List (Option (List Meta))) (cols : List Str) (sa : Int) :
    Except PyErr (List Str) :=
  match concatMeta feats with
  | .error e => .error e
  | .ok fm =>
    match concatMeta targets with
    | .error e => .error e
    | .ok tm =>
      match column "lag".toList with
      | .error e => .error e
      | .ok _ =>
        match column "referring_time".toList with
        | .error e => .error e
        | .ok _ =>
          if (tm.filter (fun m => m.lag = some (-sa))).length ≠ 1 then .error .assertionError
          else .ok (cols.map (fun c => (fm.find? (fun m => m.col = c)).elim c newName))

end PyF.FmtViews
