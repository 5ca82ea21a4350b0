import Verif.Common
import Verif.Quantile.Model
import Mathlib.Data.List.Dedup

/-!
Model of `refine_scenarios`, `pyforecaster/scenred.py` L425-501, and of `set_distance`, L357-363.

A point (the values of a node, one per variable) is a `Fin d → ℚ`; `dist` is `scipy`'s distance of one sample and one point for the metric named by the caller. The random candidates are an oracle:
`cand t i A` are the candidates drawn for the node of number `i` of step `t` when the points of the step are `A` (twenty of them, L446; the scale `k_renorm`, L441-443, is a function of the points). The graph is
the list of its nodes in the order of `g.nodes`; label and edges of a node are in `e`. Samples of a step are never empty here. The probabilities `p_vect`, L456, are computed and not used; the list of
matrices `D` is not represented.
-/

namespace PyF.Refine
open PyF

abbrev Pt (d : ℕ) := Fin d → ℚ

/-- A node with its attributes. -/
structure Node (d : ℕ) (E : Type) where
  t : ℕ
  p : ℚ
  v : Pt d
  e : E

variable {d : ℕ} {E : Type}

/-- `values[times == t]`, L433. -/
def vals (t : ℕ) (g : List (Node d E)) : List (Pt d) := (g.filter (fun n => decide (n.t = t))).map (·.v)

/-- Row minimum of the distance matrix, L362. -/
def rowMin (dist : Pt d → Pt d → ℚ) (s : Pt d) : List (Pt d) → ℚ
  | [] => 0
  | a :: as => as.foldl (fun m b => min m (dist s b)) (dist s a)

/-- `set_distance`, L357-363: the sum over the samples of the distance to the nearest point. (An empty set of points raises in `np.min`; see `loop`.) -/
def setDistance (dist : Pt d → Pt d → ℚ) (alphas samples : List (Pt d)) : ℚ := (samples.map (fun s => rowMin dist s alphas)).sum

/-- One candidate, L448-454: replace the point if the total distance gets strictly smaller. -/
def tryCand (dist : Pt d → Pt d → ℚ) (samples : List (Pt d)) (i : ℕ) (st : List (Pt d) × ℚ) (c : Pt d) : List (Pt d) × ℚ :=
  if setDistance dist (st.1.set i c) samples < st.2 then (st.1.set i c, setDistance dist (st.1.set i c) samples) else st

/-- All candidates of the point `i`, L446-454; they are drawn around the current points. -/
def tryNode (dist : Pt d → Pt d → ℚ) (samples : List (Pt d)) (cand : ℕ → List (Pt d) → List (Pt d)) (st : List (Pt d) × ℚ) (i : ℕ) : List (Pt d) × ℚ :=
  (cand i st.1).foldl (tryCand dist samples i) st

/-- `np.median(samples_t, 0)`, L439: component by component; the average of the two middle values for an even number of samples. -/
def median (samples : List (Pt d)) : Pt d := fun j => Quantile.quantileVal (samples.map (fun s => s j)) (1 / 2)

/-- The new points of step `t`, L436-454. -/
def newAlphas (dist : Pt d → Pt d → ℚ) (cand : ℕ → ℕ → List (Pt d) → List (Pt d)) (t : ℕ) (alphas samples : List (Pt d)) : List (Pt d) :=
  if t = 0 then [median samples]
  else ((List.range alphas.length).foldl (tryNode dist samples (cand t)) (alphas, setDistance dist alphas samples)).1

/-- L458-459: the points go to the nodes of step `t` in order; `IndexError` if there are more nodes than points. -/
def write (t : ℕ) : List (Node d E) → List (Pt d) → Except PyErr (List (Node d E))
  | [], _ => .ok []
  | n :: ns, as =>
    if n.t = t then
      match as with
      | [] => .error .indexError
      | a :: as' =>
        match write t ns as' with
        | .error e => .error e
        | .ok ns' => .ok ({ n with v := a } :: ns')
    else
      match write t ns as with
      | .error e => .error e
      | .ok ns' => .ok (n :: ns')

/-- The loop over the steps, L432-459: reads the old graph `g`, writes into the copy. -/
def loop (dist : Pt d → Pt d → ℚ) (cand : ℕ → ℕ → List (Pt d) → List (Pt d)) (samples : List (List (Pt d))) (g : List (Node d E)) :
    List ℕ → List (Node d E) → List ℚ → Except PyErr (List (Node d E) × List ℚ)
  | [], gn, ds => .ok (gn, ds)
  | t :: ts, gn, ds =>
    match samples[t]? with
    | none => .error .indexError
    | some S =>
      if vals t g = [] then .error .valueError
      else
        match write t gn (newAlphas dist cand t (vals t g) S) with
        | .error e => .error e
        | .ok gn' => loop dist cand samples g ts gn' (ds ++ [setDistance dist (vals t g) S])

/-- `len(np.unique(times))`, L432. -/
def nSteps (g : List (Node d E)) : ℕ := (g.map (·.t)).dedup.length

/-- `refine_scenarios`, L425-501: the new graph and, for every step, the total distance before and after. -/
def refine (dist : Pt d → Pt d → ℚ) (cand : ℕ → ℕ → List (Pt d) → List (Pt d)) (samples : List (List (Pt d))) (g : List (Node d E)) :
    Except PyErr (List (Node d E) × List (ℚ × ℚ)) :=
  match loop dist cand samples g (List.range (nSteps g)) g [] with
  | .error e => .error e
  | .ok (gn, ds) => .ok (gn, ds.zip ((List.range (nSteps g)).map (fun t => setDistance dist (vals t gn) (samples.getD t []))))

end PyF.Refine
