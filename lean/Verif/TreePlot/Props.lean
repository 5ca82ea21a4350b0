import Verif.TreePlot.Model
import Verif.Scenred.TreeProps
import Mathlib.Tactic.IntervalCases

/-! C299, C300: what the plots of trees and scenarios show. -/

namespace PyF.TreePlot
open PyF PyF.Scenred

variable {V : Type}

/-- Specification: the line shows the values along the path from the root to leaf `k`, at times 0, 1, ... -/
def Shows (N : List (Node V)) (l : Line V) (k : Nat) : Prop :=
  ∃ path : List Nat, IsPath N path k ∧ l.length = path.length ∧
    ∀ (j i : Nat), path[j]? = some i → ∃ x, N[i]? = some x ∧ l[j]? = some (j, x.v)

theorem nodesOf_path (N : List (Node V)) (path : List Nat) (k : Nat) (h : IsPath N path k) :
    (nodesOf N (path.map (fun (i : Nat) => (i : Int)))).length = path.length ∧
      ∀ (j i : Nat), path[j]? = some i → ∃ x, N[i]? = some x ∧ x.t = j ∧ (nodesOf N (path.map (fun (i : Nat) => (i : Int))))[j]? = some x := by
  have h1 : nodesOf N (path.map (fun (i : Nat) => (i : Int))) = path.filterMap (fun i => N[i]?) := by
    unfold nodesOf
    rw [List.filterMap_map]
    rfl
  have hall : ∀ i ∈ path, ∃ x, N[i]? = some x := by
    intro i hi
    obtain ⟨j, hj⟩ := List.mem_iff_getElem?.1 hi
    obtain ⟨x, hx, _⟩ := h.2 j i hj
    exact ⟨x, hx⟩
  have h2 : (path.filterMap (fun i => N[i]?)).map some = path.map (fun i => N[i]?) := by
    clear h h1
    induction path with
    | nil => rfl
    | cons a l ih =>
      obtain ⟨x, hx⟩ := hall a (by simp)
      rw [List.filterMap_cons, hx]
      simp only [List.map_cons, hx]
      rw [ih (fun i hi => hall i (by simp [hi]))]
  rw [h1]
  constructor
  · have := congrArg List.length h2
    simpa using this
  · intro j i hj
    obtain ⟨x, hx, ht, _⟩ := h.2 j i hj
    refine ⟨x, hx, ht, ?_⟩
    have h3 : ((path.filterMap (fun i => N[i]?)).map some)[j]? = some (N[i]?) := by
      rw [h2, List.getElem?_map, hj]
      rfl
    rw [List.getElem?_map, hx] at h3
    cases h4 : (path.filterMap (fun i => N[i]?))[j]? with
    | none => rw [h4] at h3; cases h3
    | some y => rw [h4] at h3; simpa using h3

theorem newLine_shows (N : List (Node V)) (path : List Nat) (k : Nat) (h : IsPath N path k) : Shows N (newLine N (path.map (fun (i : Nat) => (i : Int)))) k := by
  obtain ⟨h1, h2⟩ := nodesOf_path N path k h
  refine ⟨path, h, by simp [newLine, h1], fun j i hj => ?_⟩
  obtain ⟨x, hx, _, hy⟩ := h2 j i hj
  refine ⟨x, hx, ?_⟩
  unfold newLine
  rw [List.getElem?_map, List.getElem?_zipIdx, hy]
  simp

/-- On a path the times are the positions. -/
theorem dataLine_eq (N : List (Node V)) (path : List Nat) (k : Nat) (h : IsPath N path k) :
    dataLine N (path.map (fun (i : Nat) => (i : Int))) = newLine N (path.map (fun (i : Nat) => (i : Int))) := by
  obtain ⟨h1, h2⟩ := nodesOf_path N path k h
  apply List.ext_getElem?
  intro j
  unfold dataLine newLine
  rw [List.getElem?_map, List.getElem?_map, List.getElem?_zipIdx]
  by_cases hj : j < path.length
  · obtain ⟨x, _, ht, hy⟩ := h2 j path[j] (List.getElem?_eq_getElem hj)
    rw [hy]
    simp [ht]
  · rw [List.getElem?_eq_none (by omega)]
    rfl

/-- C299 (new): the plot of a tree has one line per node of the last time, in the order of the nodes, which shows the path to it. -/
theorem C299_new (N : List (Node V)) (h : WF N) (hne : N ≠ []) :
    ∃ (ls : List Nat) (lines : List (Line V)), ls.Pairwise (· < ·) ∧ (∀ k, k ∈ ls ↔ ∃ x, N[k]? = some x ∧ ∀ y ∈ N, y.t ≤ x.t) ∧
      plotNew N = .ok lines ∧ lines.length = ls.length ∧ ∀ (j k : Nat), ls[j]? = some k → ∃ l, lines[j]? = some l ∧ Shows N l k := by
  obtain ⟨ls, h1, _, h3, path, h4, h5, _⟩ := C50_paths N h hne
  refine ⟨ls, (ls.map (fun k => (path k).map (fun (i : Nat) => (i : Int)))).map (newLine N), h1, h3, ?_, by simp, ?_⟩
  · unfold plotNew
    rw [h5]
  · intro j k hk
    refine ⟨newLine N ((path k).map (fun (i : Nat) => (i : Int))), ?_, newLine_shows N _ k (h4 k (List.mem_of_getElem? hk)).1⟩
    rw [List.getElem?_map, List.getElem?_map, hk]
    rfl

/-- C299 (update): given the lines of an earlier plot, those up to the number of paths of the tree become the lines of a new plot; further ones keep their old points, and paths without a line are
not shown. -/
theorem C299_update (N : List (Node V)) (h : WF N) (hne : N ≠ []) (old : List (Line V)) :
    ∃ lines r, plotNew N = .ok lines ∧ plotUpdate N old = .ok r ∧ r.length = old.length ∧
      ∀ j < old.length, (j < lines.length → r[j]? = lines[j]?) ∧ (lines.length ≤ j → r[j]? = old[j]?) := by
  obtain ⟨ls, h1, _, h3, path, h4, h5, _⟩ := C50_paths N h hne
  have hmap : (ls.map (fun k => (path k).map (fun (i : Nat) => (i : Int)))).map (dataLine N) = (ls.map (fun k => (path k).map (fun (i : Nat) => (i : Int)))).map (newLine N) := by
    rw [List.map_map, List.map_map]
    exact List.map_congr_left fun k hk => dataLine_eq N _ k (h4 k hk).1
  generalize hc : ls.map (fun k => (path k).map (fun (i : Nat) => (i : Int))) = cols at h5 hmap
  refine ⟨cols.map (newLine N), _, by unfold plotNew; rw [h5], by unfold plotUpdate; rw [h5], ?_, fun j hj => ⟨fun hl => ?_, fun hl => ?_⟩⟩
  · simp only [List.length_append, List.length_zipWith, List.length_drop]
    omega
  · rw [List.length_map] at hl
    rw [List.getElem?_append_left (by rw [List.length_zipWith]; omega), ← hmap, List.getElem?_zipWith, List.getElem?_map, List.getElem?_eq_getElem hl, List.getElem?_eq_getElem hj]
    rfl
  · rw [List.length_map] at hl
    rw [List.getElem?_append_right (by rw [List.length_zipWith]; omega), List.getElem?_drop, List.length_zipWith]
    congr 1
    omega

theorem replaceVar_get (N : List (Node V)) (vals : List V) (k : Nat) (x : Node V) (hx : N[k]? = some x) :
    (replaceVar N vals)[k]? = some { x with v := (vals[k]?).getD x.v } := by
  unfold replaceVar
  rw [List.getElem?_map, List.getElem?_zipIdx, hx]
  simp only [Option.map_some, Nat.zero_add]
  cases hv : vals[k]? <;> simp

theorem replaceVar_length (N : List (Node V)) (vals : List V) : (replaceVar N vals).length = N.length := by simp [replaceVar]

theorem replaceVar_wf (N : List (Node V)) (vals : List V) (h : WF N) : WF (replaceVar N vals) := by
  intro k x hx
  have hk : k < N.length := by
    rw [← replaceVar_length N vals]
    exact (List.getElem?_eq_some_iff.1 hx).1
  have e := replaceVar_get N vals k N[k] (List.getElem?_eq_getElem hk)
  rw [e] at hx
  cases hx
  rcases h k N[k] (List.getElem?_eq_getElem hk) with h1 | ⟨p, y, h1, h2, h3, h4⟩
  · left; exact h1
  · right
    exact ⟨p, _, h1, h2, replaceVar_get N vals p y h3, h4⟩

/-- C299 (variables): `plot_vars` leaves the variable in the tree in place of its values, in the first nodes if it is shorter than the tree; the values of the tree are lost. With `dyn_offset` the
root gets NaN and every further node the value of the node before. -/
theorem C299_vars (nan : V) (N : List (Node V)) (h : WF N) (hne : N ≠ []) (vals : List V) (dyn : Bool) :
    ∃ N' lines, plotVars nan N vals dyn = .ok (N', lines) ∧ plotNew N' = .ok lines ∧ N'.length = N.length ∧ WF N' ∧
      ∀ (k : Nat) (x : Node V), N[k]? = some x → ∃ x', N'[k]? = some x' ∧ x'.t = x.t ∧ x'.p = x.p ∧ x'.parent = x.parent ∧
        (dyn = false → x'.v = (vals[k]?).getD x.v) ∧ (dyn = true → (k = 0 → x'.v = nan) ∧ (0 < k → x'.v = (vals[k - 1]?).getD x.v)) := by
  have hw := replaceVar_wf N (if dyn then nan :: vals else vals) h
  have hn : replaceVar N (if dyn then nan :: vals else vals) ≠ [] := by
    intro e
    have := replaceVar_length N (if dyn then nan :: vals else vals)
    rw [e] at this
    exact hne (List.length_eq_zero_iff.1 this.symm)
  obtain ⟨_, lines, _, _, hp, _⟩ := C299_new _ hw hn
  refine ⟨_, lines, ?_, hp, replaceVar_length _ _, hw, fun k x hx => ⟨_, replaceVar_get _ _ k x hx, rfl, rfl, rfl, fun hd => ?_, fun hd => ⟨fun hk => ?_, fun hk => ?_⟩⟩⟩
  · unfold plotVars
    simp only
    rw [hp]
  · subst hd; rfl
  · subst hd; subst hk; rfl
  · subst hd
    obtain ⟨m, rfl⟩ : ∃ m, k = m + 1 := ⟨k - 1, by omega⟩
    rfl

/-- C300 (arrays): `plot_scen` shows scenarios of one or two variables; without variables the assertion stops it, with more it fails because nothing was drawn. -/
theorem C300_variables (T n d : Nat) (S : Nat → Nat → Nat → V) :
    ((∃ r, plotScen T n d S = .ok r) ↔ d = 1 ∨ d = 2) ∧ (d = 0 → plotScen T n d S = .error .assertionError) ∧ (2 < d → plotScen T n d S = .error .unboundLocalError) := by
  unfold plotScen
  rcases Nat.lt_or_ge 2 d with h | h
  · rw [if_neg (by omega), if_neg (by omega), if_pos h]
    simp
    omega
  · interval_cases d <;> simp
    split_ifs <;> simp

/-- C300 (lines): with one variable and at least two steps, or two variables, there is one line per scenario with one point per step. -/
theorem C300_lines (T n d : Nat) (S : Nat → Nat → Nat → V) (h : d = 1 ∧ T ≠ 1 ∨ d = 2) :
    ∃ r, plotScen T n d S = .ok r ∧ r.length = n ∧
      ∀ i < n, ∃ l, r[i]? = some l ∧ l.length = T ∧ ∀ t < T, l[t]? = some (t, (List.range d).map (fun v => S t i v)) := by
  unfold plotScen
  rcases h with ⟨rfl, h⟩ | rfl
  · rw [if_neg (by decide), if_pos rfl, if_neg h]
    refine ⟨_, rfl, by simp, fun i hi => ⟨_, by rw [List.getElem?_map, List.getElem?_range hi]; rfl, by simp, fun t ht => ?_⟩⟩
    rw [List.getElem?_map, List.getElem?_range ht]
    rfl
  · rw [if_pos rfl]
    refine ⟨_, rfl, by simp, fun i hi => ⟨_, by rw [List.getElem?_map, List.getElem?_range hi]; rfl, by simp, fun t ht => ?_⟩⟩
    rw [List.getElem?_map, List.getElem?_range ht]
    rfl

/-- C300 (one step): with one variable and one step there is a single line through the values of all scenarios, however many. -/
theorem C300_one_step (n : Nat) (S : Nat → Nat → Nat → V) :
    ∃ l, plotScen 1 n 1 S = .ok [l] ∧ l.length = n ∧ ∀ i < n, l[i]? = some (i, [S 0 i 0]) := by
  refine ⟨_, rfl, by simp, fun i hi => ?_⟩
  rw [List.getElem?_map, List.getElem?_range hi]
  rfl

end PyF.TreePlot
