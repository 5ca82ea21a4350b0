import Verif.ScenUnits.Model
import Verif.Scenred.TreeProps
import Mathlib.Tactic.Linarith
import Mathlib.Tactic.FieldSimp
import Mathlib.Tactic.Ring
import Mathlib.Tactic.LinearCombination

/-! Scenario trees of shifted and of rescaled scenarios. -/

namespace PyF.ScenUnits
open PyF Scenred

variable {n q : ℕ} {V W : Type}

/-- A state with the values changed step by step. -/
def mapSt (f : ℕ → V → W) (s : St n V) : St n W := { alive := s.alive, P := s.P, L := s.L, D := s.D, S := fun t k => f t (s.S t k) }

theorem merge_map (c : Cfg n) (i : ℕ) (f : ℕ → V → W) (s : St n V) : merge c i (mapSt f s) = mapSt f (merge c i s) := by
  have hS : ∀ L rem aug, mergeS (mapSt f s).S L i rem aug = fun t k => f t (mergeS s.S L i rem aug t k) := by
    intro L rem aug
    funext t k
    simp only [mergeS, mapSt]
    split <;> split <;> rfl
  simp only [merge, hS]
  rfl

theorem loop_map (c : Cfg n) (i : ℕ) (dmax : ℚ) (f : ℕ → V → W) (fuel : ℕ) (rel : Option ℚ) (dp : ℚ) (s : St n V) :
    loop c i dmax fuel rel dp (mapSt f s) = mapSt f (loop c i dmax fuel rel dp s) := by
  induction fuel generalizing rel dp s with
  | zero => rfl
  | succ k ih =>
    have hg : goOn c i rel (mapSt f s) = goOn c i rel s := rfl
    have hc : costs c (mapSt f s) (idxRem c (mapSt f s)) = costs c s (idxRem c s) := rfl
    simp only [loop, hg, hc, merge_map]
    split
    · exact ih _ _ _
    · rfl

theorem stepAt_map (c : Cfg n) (i : ℕ) (f : ℕ → V → W) (s : St n V) : stepAt c i (mapSt f s) = mapSt f (stepAt c i s) := by
  have hd : deltaMax c i (mapSt f s) = deltaMax c i s := rfl
  simp only [stepAt, hd, loop_map]
  split <;> rfl

theorem after_map (c : Cfg n) (f : ℕ → V → W) (S0 : ℕ → Fin n → V) (k : ℕ) :
    after c (fun t j => f t (S0 t j)) k = mapSt f (after c S0 k) := by
  induction k with
  | zero => rfl
  | succ k ih => rw [after, ih, stepAt_map, after]

/-- A node with its value changed. -/
def mapNode (f : ℕ → V → W) (x : Node V) : Node W := { t := x.t, p := x.p, v := f x.t x.v, parent := x.parent }

variable [DecidableEq V] [DecidableEq W]

theorem same_value (f : ℕ → V → W) (hf : ∀ t, Function.Injective (f t)) (t : ℕ) (v : V) (x : Node V) :
    ((mapNode f x).t == t && decide ((mapNode f x).v = f t v)) = (x.t == t && decide (x.v = v)) := by
  by_cases h : x.t = t
  · subst h
    simp only [mapNode, (hf x.t).eq_iff]
  · have h1 : (x.t == t) = false := by simpa using h
    have h2 : ((mapNode f x).t == t) = false := h1
    rw [h1, h2, Bool.false_and, Bool.false_and]

theorem addPoint_map {σ : Type} (P : ℕ → σ → ℚ) (S : ℕ → σ → V) (f : ℕ → V → W) (hf : ∀ t, Function.Injective (f t)) (t : ℕ) (nodes : List (Node V)) (s : σ) :
    addPoint P (fun t s => f t (S t s)) t (nodes.map (mapNode f)) s = (addPoint P S t nodes s).map (List.map (mapNode f)) := by
  unfold addPoint
  split
  · rfl
  · have h1 : (nodes.map (mapNode f)).any (fun x => x.t == t && decide (x.v = f t (S t s))) = nodes.any (fun x => x.t == t && decide (x.v = S t s)) := by
      rw [List.any_map]
      congr 1
      funext x
      exact same_value f hf t _ x
    have h2 : (nodes.map (mapNode f)).findIdx? (fun x => x.t == t - 1 && decide (x.v = f (t - 1) (S (t - 1) s)))
        = nodes.findIdx? (fun x => x.t == t - 1 && decide (x.v = S (t - 1) s)) := by
      rw [List.findIdx?_map]
      congr 1
      funext x
      exact same_value f hf (t - 1) _ x
    rw [h1, h2]
    split
    · rfl
    · split
      · rfl
      · simp [Except.map, mapNode]

theorem addPoints_map {σ : Type} (P : ℕ → σ → ℚ) (S : ℕ → σ → V) (f : ℕ → V → W) (hf : ∀ t, Function.Injective (f t)) (t : ℕ) (nodes : List (Node V)) (l : List σ) :
    addPoints P (fun t s => f t (S t s)) t (nodes.map (mapNode f)) l = (addPoints P S t nodes l).map (List.map (mapNode f)) := by
  induction l generalizing nodes with
  | nil => rfl
  | cons s ss ih =>
    simp only [addPoints, addPoint_map P S f hf]
    cases h : addPoint P S t nodes s with
    | error e => rfl
    | ok nodes' => simp only [Except.map]; exact ih nodes'

theorem addTimes_map {σ : Type} (P : ℕ → σ → ℚ) (S : ℕ → σ → V) (f : ℕ → V → W) (hf : ∀ t, Function.Injective (f t)) (cols : List σ) (nodes : List (Node V)) (k : ℕ) :
    addTimes P (fun t s => f t (S t s)) cols (nodes.map (mapNode f)) k = (addTimes P S cols nodes k).map (List.map (mapNode f)) := by
  induction k with
  | zero => rfl
  | succ k ih =>
    simp only [addTimes, ih]
    cases h : addTimes P S cols nodes k with
    | error e => rfl
    | ok nodes' => simp only [Except.map]; exact addPoints_map P S f hf _ _ _

/-- The reduction moves values without looking at them: an injective change of the values of each step changes the values of the nodes and nothing else. -/
theorem network_map (c : Cfg n) (f : ℕ → V → W) (hf : ∀ t, Function.Injective (f t)) (S0 : ℕ → Fin n → V) :
    network c (fun t k => f t (S0 t k)) = (network c S0).map (List.map (mapNode f)) := by
  have hrow : ∀ t, (row c (fun t k => f t (S0 t k)) t).P = (row c S0 t).P := fun t => by simp only [row, after_map]; rfl
  have hS : finalS c (fun t k => f t (S0 t k)) = fun t k => f t (finalS c S0 t k) := by simp only [finalS, after_map]; rfl
  have hc : columns c (fun t k => f t (S0 t k)) = columns c S0 := by simp only [columns, row, after_map]; rfl
  unfold network
  simp only [hrow, hS, hc]
  unfold getNetwork
  split
  · next s _ =>
    exact addTimes_map (fun t s => (row c S0 t).P s) (finalS c S0) f hf (columns c S0) [{ t := 0, p := 1, v := finalS c S0 0 s, parent := none }] (c.T - 1)
  · rfl

/-- Scenarios with a signal added at each step (the forecast to which the errors are added). -/
def shifted (S : Samples n q) (x : ℕ → Fin q → ℚ) : Samples n q := fun t k => S t k + x t

theorem norm_shifted (sq : ℚ → ℚ) (S : Samples n q) (x : ℕ → Fin q → ℚ) (t : ℕ) (k : Fin n) (v : Fin q) : norm sq (shifted S x) t k v = norm sq S t k v := by
  have hn : (n : ℚ) ≠ 0 := by
    have := k.pos
    exact_mod_cast this.ne'
  have hm : mean (shifted S x) t v = mean S t v + x t v := by
    have : ∑ k, shifted S x t k v = ∑ k, S t k v + n * x t v := by
      simp [shifted, Finset.sum_add_distrib]
    rw [mean, this, mean]
    field_simp
  have hd : ∀ k, shifted S x t k v - mean (shifted S x) t v = S t k v - mean S t v := by
    intro k
    rw [hm]
    simp only [shifted, Pi.add_apply]
    ring
  simp only [norm, var, hd]

/-- **C269.** Adding a signal to all scenarios and building the tree, or building the tree and adding the signal to it (`superimpose_signal_to_tree`), gives the same
result: nodes, probabilities, parents and values. -/
theorem C269_shift (l : Lib n) (T : ℕ) (nodes : ℕ → ℕ) (tol : ℚ) (S : Samples n q) (x : ℕ → Fin q → ℚ) :
    tree l T nodes tol (shifted S x) = (tree l T nodes tol S).map (superimpose x) := by
  have hcfg : cfg l T nodes tol (shifted S x) = cfg l T nodes tol S := by
    have ho : obs l.sq (shifted S x) = obs l.sq S := by
      funext i k
      simp only [obs, norm_shifted]
    simp only [cfg, ho]
  have hsup : (superimpose x : List (Node (Fin q → ℚ)) → _) = List.map (mapNode fun t v => v + x t) := by
    funext N
    rw [C51_superimpose]
    rfl
  rw [tree, hcfg, hsup]
  exact network_map (cfg l T nodes tol S) (fun t v => v + x t) (fun t => add_left_injective (x t)) S

/-- Scenarios in another unit of measure. -/
def rescaled (a : ℚ) (S : Samples n q) : Samples n q := fun t k => a • S t k

theorem mean_rescaled (a : ℚ) (S : Samples n q) (t : ℕ) (v : Fin q) : mean (rescaled a S) t v = a * mean S t v := by
  simp only [mean, rescaled, Pi.smul_apply, smul_eq_mul, ← Finset.mul_sum]
  ring

theorem var_rescaled (a : ℚ) (S : Samples n q) (t : ℕ) (v : Fin q) : var (rescaled a S) t v = a ^ 2 * var S t v := by
  simp only [var, mean_rescaled, rescaled, Pi.smul_apply, smul_eq_mul]
  rw [mul_div_assoc', Finset.mul_sum]
  congr 1
  exact Finset.sum_congr rfl fun k _ => by ring

/-- **C270.** The normalised observations, from which the distances are computed, depend on the unit of measure: the value of a scenario at a step is the same in another
unit only if it is the mean of the step. -/
theorem C270_normalised (sq : ℚ → ℚ) (S : Samples n q) (a : ℚ) (ha : 0 < a) (t : ℕ) (k : Fin n) (v : Fin q) (h0 : 0 ≤ sq (var S t v))
    (hsq : sq (a ^ 2 * var S t v) = a * sq (var S t v)) :
    norm sq (rescaled a S) t k v = norm sq S t k v ↔ a = 1 ∨ S t k v = mean S t v := by
  have h1 : 0 < sq (var S t v) + 1 / 1000000 := by linarith
  have h2 : 0 < a * sq (var S t v) + 1 / 1000000 := by
    have := mul_nonneg ha.le h0
    linarith
  have h3 : norm sq (rescaled a S) t k v = a * (S t k v - mean S t v) / (a * sq (var S t v) + 1 / 1000000) := by
    simp only [norm, var_rescaled, hsq, mean_rescaled, rescaled, Pi.smul_apply, smul_eq_mul]
    ring
  rw [h3, norm, div_eq_div_iff h2.ne' h1.ne']
  constructor
  · intro h
    have : (a - 1) * (S t k v - mean S t v) = 0 := by linear_combination 1000000 * h
    rcases mul_eq_zero.1 this with h | h
    · exact Or.inl (by linarith)
    · exact Or.inr (by linarith)
  · rintro (rfl | h)
    · ring
    · rw [h]; ring

end PyF.ScenUnits
