import Verif.Fmt.Model
import Mathlib.Data.List.Dedup

/-!
Model of `Formatter.global_form_preprocess` (`pyforecaster/formatter.py` L598-630) and of the sequential `global_form`
branch of `Formatter.transform` (L182, L196-203) without memory reduction, correlation reordering and calendar features.
The string column `name` is kept as a tag of the table instead of a column. Iterating over a Python `set` gives an
arbitrary order, which is the oracle `ord`.
-/

namespace PyF.GlobalForm
open PyF.Names PyF.Transform PyF.Fmt

/-- `'target'`. -/
def target : Str := "target".toList

/-- One table of the result: the content of its `name` column and its other columns. -/
structure Series where
  name : Str
  cols : List (Str × Col)
  deriving DecidableEq

/-- L599: `assert np.unique([tr.names for tr in self.target_transformers]) == 'target'`. `ValueError` for lists of
different lengths (ragged array) and for two or more distinct names (truth value of an array). -/
def checkTargets (names : List (List Str)) : Except PyErr Unit :=
  if names.any (fun a => names.any (fun b => a.length ≠ b.length)) then .error .valueError
  else
    match names.flatten.dedup with
    | [] => .error .assertionError
    | [n] => if n = target then .ok () else .error .assertionError
    | _ => .error .valueError

/-- `transformed_columns`, L602-604. -/
def transformedCols (ord : List Str → List Str) (trNames : List (List Str)) : List Str :=
  ord (trNames.flatten.dedup.filter (fun n => n ≠ target))

/-- `x[names]`, `KeyError` for a missing one. -/
def getCols (x : List (Str × Col)) : List Str → Except PyErr (List (Str × Col))
  | [] => .ok []
  | n :: ns =>
    match x.find? (fun p => p.1 = n) with
    | none => .error .keyError
    | some p =>
      match getCols x ns with
      | .error e => .error e
      | .ok r => .ok (p :: r)

/-- The single-level branch, L622-630. -/
def single (tc : List Str) (x : List (Str × Col)) : Except PyErr (List Series) :=
  let indep := x.filter (fun p => p.1 ∉ tc)
  match indep with
  | [] => .ok []
  | _ =>
    match getCols x tc with
    | .error e => .error e
    | .ok shared => .ok (indep.map (fun p => { name := p.1, cols := (target, p.2) :: shared }))

/-- The columns of one group of a two-level table: `x[c]`. -/
def group (x : List ((Str × Str) × Col)) (c : Str) : List (Str × Col) :=
  (x.filter (fun p => p.1.1 = c)).map (fun p => (p.1.2, p.2))

/-- One private group, L613-620. -/
def privateSeries (tc : List Str) (shared : List (Str × Col)) (p : Str) (g : List (Str × Col)) : Except PyErr Series :=
  match g.filter (fun q => q.1 ∉ tc) with
  | [t] => .ok { name := p, cols := g.map (fun q => if q.1 = t.1 then (target, q.2) else q) ++ shared }
  | _ => .error .assertionError

/-- All private groups in order. -/
def privates (tc : List Str) (shared : List (Str × Col)) (x : List ((Str × Str) × Col)) : List Str → Except PyErr (List Series)
  | [] => .ok []
  | p :: ps =>
    match privateSeries tc shared p (group x p) with
    | .error e => .error e
    | .ok s =>
      match privates tc shared x ps with
      | .error e => .error e
      | .ok r => .ok (s :: r)

/-- Level-0 labels in order of first appearance, `x.columns.get_level_values(0).unique()`, L608. -/
def level0 (x : List ((Str × Str) × Col)) : List Str := (x.map (fun p => p.1.1)).reverse.dedup.reverse

/-- The two-level branch, L606-620. -/
def multi (ord : List Str → List Str) (tc : List Str) (x : List ((Str × Str) × Col)) : Except PyErr (List Series) :=
  let priv := (level0 x).filter (fun c => !((group x c).all (fun q => q.1 ∈ tc)))
  let sharedGroups := ord ((level0 x).filter (fun c => (group x c).all (fun q => q.1 ∈ tc)))
  let shared := sharedGroups.flatMap (group x)
  privates tc shared x priv

/-- `global_form_preprocess` on a single-level frame, L598-630. -/
def preprocess (ord : List Str → List Str) (targetNames trNames : List (List Str)) (x : List (Str × Col)) :
    Except PyErr (List Series) :=
  match checkTargets targetNames with
  | .error e => .error e
  | .ok () => single (transformedCols ord trNames) x

/-- The loop of L197-203: each table is transformed on its own, the formatter keeping its state. -/
def loop {I : Type} [DecidableEq I] (idx : List I) (dt : Nat) (rt : Bool) :
    Formatter → List Series → Except PyErr (Formatter × List (Str × IFrame I × IFrame I))
  | fm, [] => .ok (fm, [])
  | fm, s :: ss =>
    match transformX fm idx ⟨dt, s.cols⟩ rt with
    | .error e => .error e
    | .ok (fm', x, y) =>
      match loop idx dt rt fm' ss with
      | .error e => .error e
      | .ok (fm'', r) => .ok (fm'', (s.name, x, y) :: r)

/-- One series reaching `global_form_postprocess` with `corr_reorder`: whether its target frame is empty, the column order
`corr.sort_values(ascending=False).index` computed from its data (an oracle: some permutation of the columns), and its
rows as functions of the column name. -/
structure PostIn (N V : Type) where
  yEmpty : Bool
  order : List N
  rows : List (N → V)

/-- `global_form_postprocess`, L641-653, for the columns of one variable of one transformer: `stored` is
`tr.reordered_cols_names_dict[v]`; the result lists, per row, the values now under the original names in order. -/
def postprocess {N V : Type} (stored : Option (List N)) (s : PostIn N V) :
    Except PyErr (Option (List N) × List (List V)) :=
  if s.yEmpty then
    match stored with
    | none => .error .keyError
    | some o => .ok (some o, s.rows.map (fun r => o.map r))
  else .ok (some s.order, s.rows.map (fun r => s.order.map r))

/-- The calls for the successive series, L197-200. -/
def postAll {N V : Type} : Option (List N) → List (PostIn N V) → Except PyErr (Option (List N) × List (List (List V)))
  | st, [] => .ok (st, [])
  | st, s :: ss =>
    match postprocess st s with
    | .error e => .error e
    | .ok (st', out) =>
      match postAll st' ss with
      | .error e => .error e
      | .ok (st'', outs) => .ok (st'', out :: outs)

end PyF.GlobalForm
