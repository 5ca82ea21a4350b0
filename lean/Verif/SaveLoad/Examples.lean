import Verif.SaveLoad.Props
import Mathlib.Data.Int.Notation

/-!
Concrete objects meeting the hypotheses of the theorems. Values are integers: negative ones are callable, 99 cannot be pickled.
-/

namespace PyF.SaveLoad

open PyF

def exWorld : World ℤ := { hidden := fun v => decide (v < 0), copy := fun v => if v = 99 then none else some v, nil := 0 }

/-- The value of an attribute as a number. -/
def num (o : Obj ℤ) (k : Name) : ℤ :=
  match getattr o k with
  | .ok v => v
  | .error _ => -1

/-- An architecture that only depends on the number of layers and hidden units. -/
def exArch (o : Obj ℤ) : List (Name × ℤ) := runtimeNames.map (fun k => (k, 100 * num o "n_layers".toList + num o "n_hidden_x".toList + 1000))

/-- A fresh network: class-level defaults and the attributes of the base constructor. -/
def exBase : Obj ℤ := { mro := [[("predict".toList, -5)], nnNames.map (fun k => (k, 0)), [("__doc__".toList, 1)]], inst := [("err_distr".toList, 0), ("q_vect".toList, 11)] }

/-- A trained one. -/
def exTrained : Obj ℤ :=
  setAttrs (nnInit exWorld exBase [("n_layers".toList, 3), ("n_hidden_x".toList, 20)] none exArch) [("pars".toList, 42), ("input_scaler".toList, 7), ("err_distr".toList, 13)]

/-- What prediction could be. -/
def exPredict (o : Obj ℤ) : List (Except PyErr ℤ) := (predictReads .nn).map (getattr o)

theorem ex_ofKind : OfKind exWorld .nn exTrained := by
  intro k hk
  exact ⟨nnNames.map (fun k => (k, 0)), by simp [exTrained, exBase, setAttrs, setattr, nnInit, runtimeNames, exArch], 0, List.mem_map.2 ⟨k, hk, rfl⟩, rfl⟩

theorem ex_reads : ReadsOnly (archReads .nn) exArch := by
  intro o o' h
  unfold exArch num
  rw [h _ (by decide), h "n_hidden_x".toList (by decide)]

example : exPredict (nnInit exWorld exBase [] (some (save exWorld exTrained)) exArch) = exPredict exTrained := by
  refine C69_networks exWorld .nn (by decide) exTrained exBase [] exArch ex_ofKind ?_ ?_ ex_reads exPredict ?_ ?_
  · intro q; simp [exArch, archSets, List.map_map, Function.comp_def]
  · intro k v h
    have hd : ∀ e ∈ exArch exTrained, (match getattr exTrained e.1 with | .ok u => decide (u = e.2) | .error _ => false) = true := by decide +kernel
    have := hd _ h
    cases hg : getattr exTrained k with
    | error e => rw [hg] at this; cases this
    | ok u => rw [hg] at this; simp only [decide_eq_true_eq] at this; rw [this]
  · intro o o' h
    exact List.map_congr_left h
  · intro k hk v hv
    left
    have hd : ∀ k ∈ archReads .nn ++ predictReads .nn, (match getattr exTrained k with | .ok u => decide (u ≠ 99) | .error _ => true) = true := by decide +kernel
    have := hd k (List.mem_append.2 hk)
    rw [hv] at this
    simp only [ne_eq, decide_not, Bool.not_eq_true', decide_eq_false_iff_not] at this
    simp [exWorld, this]

/-- The saved value survives, the instance-only one does not. -/
example : num (nnInit exWorld exBase [("n_layers".toList, 9)] (some (save exWorld exTrained)) exArch) "pars".toList = 42 := by decide +kernel
example : num (nnInit exWorld exBase [("n_layers".toList, 9)] (some (save exWorld exTrained)) exArch) "n_layers".toList = 3 := by decide +kernel
example : num (nnInit exWorld exBase [("n_layers".toList, 9)] (some (save exWorld exTrained)) exArch) "err_distr".toList = 0 := by decide +kernel
example : ("pars".toList, 42) ∈ save exWorld exTrained := by decide +kernel
example : "predict".toList ∉ (save exWorld exTrained).map Prod.fst := by decide +kernel

/-- A value that cannot be pickled is left out. -/
example : "iterate".toList ∉ (save exWorld (setattr exTrained "iterate".toList 99)).map Prod.fst := by decide +kernel

/-- Residuals known for two hours only. -/
example : addResiduals [(0, 'a'), (1, 'b')] [1, 0] = .ok ['b', 'a'] := rfl
example : addResiduals [(0, 'a'), (1, 'b')] [1, 2] = .error .keyError := rfl

/-- The inverter's optimiser keeps the rate of the constructor call. -/
example : (match picnnInit exWorld exBase [(sRate, 5)] [] (fun r => r + 100) (some [(sRate, 8)]) exArch with
    | .ok q => decide (num q sRate = 8 ∧ num q sInvOpt = 105) | .error _ => false) = true := by decide +kernel

/-- A name that is only a class-level one is ignored by `set_params`. -/
example : num (setParams exTrained [("n_layers".toList, 4), ("reproject".toList, 1)] exArch) "n_layers".toList = 4 := by decide +kernel
example : num (setParams exTrained [("n_layers".toList, 4), ("reproject".toList, 1)] exArch) "reproject".toList = 0 := by decide +kernel

end PyF.SaveLoad
