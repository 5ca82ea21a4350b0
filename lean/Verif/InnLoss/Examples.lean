import Verif.InnLoss.Props

/-! Concrete instances for C241-C243. -/

namespace PyF.InnLoss

open PyF PyF.INN

/-- One exogenous column, history three, horizon two. -/
noncomputable def exNet : Net := ⟨1, [⟨[1, 2, 3], fun i => i⟩], 1, 3, fun e _ j => e (j + 1)⟩

example (row y : ℕ → ℝ) : exNet.targetRow 2 row y 0 =
    INN.embed 1 3 exNet.layers (fun i => if i + 2 < 3 then row (1 + 2 + i) else y (i + 2 - 3)) (3 - 2 + 0) := C241_window exNet 2 (by norm_num [exNet]) row y 0

/-- The embedded targets 1, 2, 4 have the baseline error (9 + 1 + 4) / 3. -/
example : Losses.mse (fun (_ : Fin 1) (j : Fin 3) => (2 : ℝ) ^ j.val) (roll (fun (_ : Fin 1) (j : Fin 3) => (2 : ℝ) ^ j.val)) = 14 / 3 := by
  rw [C241_baseline]
  simp [Fin.sum_univ_succ, Fin.last]
  norm_num

example (rows : Fin 5 → ℕ → ℝ) (y : Fin 5 → Fin 1 → ℝ) : quasiLoss exNet rows y = none := C241_one_target _ _ _

/-- A network without layers embeds the targets as they are: constant targets, no loss. -/
example (head : (ℕ → ℝ) → (ℕ → ℝ) → ℕ → ℝ) : quasiLoss ⟨1, [], 0, 3, head⟩ (fun (_ : Fin 2) _ => 0) (fun i (_ : Fin 2) => (i.val : ℝ)) = none := by
  rw [C241_undefined_iff (by norm_num) (by norm_num)]
  intro i j j'
  fin_cases j <;> fin_cases j' <;> simp [targetTable, Net.targetRow, Net.embed, INN.embed, lastN, Net.endogenous, Net.future, shiftIn, wide]

example : skillScore (fun (i : Fin 2) (j : Fin 3) => 5 * ((i.val + j.val : ℕ) : ℝ) + 7) (fun (_ : Fin 2) (_ : Fin 3) => 5 * (1 : ℝ) + 7) =
    skillScore (fun (i : Fin 2) (j : Fin 3) => ((i.val + j.val : ℕ) : ℝ)) (fun _ _ => 1) := C241_scale 5 (by norm_num) (fun _ => 7) _ _

/-- The loss of the witness is defined and zero, so `C241_zero_iff` and `C242_quasi_one_layer_iff` apply to it. -/
example : stuckNet.call (fun _ => 0) 1 = stuckNet.targetRow 2 (fun _ => 0) (wide (fun (_ : Fin 2) => 0)) 1 :=
  ((C241_zero_iff (le_refl 1) (by norm_num) _ _ _ _ C242_quasi_perfect_but_wrong.1).2).1 rfl 0 1

example : ¬ ∀ (_ : Fin 1), ∀ k < 2, ∑ j ∈ Finset.range 1, kernel 1 3 stuckLayer.vec (1 + k) j *
    (invert 1 3 [stuckLayer] (shiftIn 3 2 (stuckNet.embed (fun _ => 0)) (stuckNet.targetRow 2 (fun _ => 0) (wide (fun (_ : Fin 2) => 0)))) j - 0) = 0 :=
  fun h => C242_quasi_perfect_but_wrong.2.2 ((C242_quasi_one_layer_iff (le_refl 1) (by norm_num) stuckNet (by norm_num [stuckNet]) stuckLayer rfl _ _
    C242_quasi_perfect_but_wrong.1).2 h)

/-- History two, horizon two, no layers, a head that returns the targets: zero loss, exact forecasts. -/
noncomputable def flatNet : Net := ⟨1, [], 0, 2, fun _ _ j => j⟩

theorem flat_quasi : quasiLoss flatNet (fun (_ : Fin 1) _ => 0) (fun _ (j : Fin 2) => (j.val : ℝ)) = some 0 := by
  have ht : ∀ j : Fin 2, targetTable flatNet (fun (_ : Fin 1) _ => (0 : ℝ)) (fun _ (j : Fin 2) => (j.val : ℝ)) 0 j = j.val := by
    intro j
    fin_cases j <;> simp [targetTable, Net.targetRow, Net.embed, INN.embed, lastN, Net.endogenous, Net.future, shiftIn, wide, flatNet]
  cases hr : quasiLoss flatNet (fun (_ : Fin 1) _ => (0 : ℝ)) (fun _ (j : Fin 2) => (j.val : ℝ)) with
  | none =>
    have h := (C241_undefined_iff (le_refl 1) (by norm_num) _ _ _).1 hr 0 0 1
    rw [ht, ht] at h
    norm_num at h
  | some r =>
    have h := ((C241_zero_iff (le_refl 1) (by norm_num) _ _ _ r hr).2).2 (fun i j => (ht j).symm)
    rw [h]

example : fullLoss flatNet (fun (_ : Fin 1) _ => 0) (fun _ (j : Fin 2) => (j.val : ℝ)) = 0 :=
  C242_quasi_equal_lengths (n := 2) (le_refl 1) (by norm_num) flatNet rfl _ _ flat_quasi (fun _ => trivial)

example (i : Fin 1) (j : Fin 2) : flatNet.serve 2 ((fun (_ : Fin 1) _ => 0) i) j = (j.val : ℝ) :=
  ((C242_full (le_refl 1) (by norm_num) flatNet (fun (_ : Fin 1) _ => 0) (fun _ (j : Fin 2) => (j.val : ℝ))).2.2).1
    (C242_quasi_equal_lengths (n := 2) (le_refl 1) (by norm_num) flatNet rfl _ _ flat_quasi (fun _ => trivial)) i j

/-- Columns beyond the history do not matter. -/
example : flatNet.serve 2 (fun i => if i < 2 then 5 else 1) 0 = flatNet.serve 2 (fun i => if i < 2 then 5 else 2) 0 :=
  C242_embedding_suffices flatNet 2 _ _ (fun i hi => by
    have : i ≤ 1 := Nat.le_of_lt_succ hi
    simp [Net.embed, Net.endogenous, flatNet, INN.embed, this]) (fun i hi => absurd hi (by simp [flatNet])) (le_refl 2) 0

example : ∃ row row' : ℕ → ℝ, (∃ i < 3, row i ≠ row' i) ∧ ∀ head, ∀ j < 2, (Net.mk 1 [stuckLayer, stuckLayer] 0 3 head).serve 2 row j =
    (Net.mk 1 [stuckLayer, stuckLayer] 0 3 head).serve 2 row' j := C242_indistinguishable 1 3 2 (by norm_num) (by norm_num) _ _ _

/-- Targets do not matter; standardised inputs have zero loss. -/
example (y : Fin 2 → Fin 3 → ℝ) (r : ℝ) (h : plainLoss 1 1 [] (fun (i : Fin 2) _ => if i = 0 then (1 : ℝ) else -1) y = some r) : r = 0 := by
  apply (((C243_targets_unused (by norm_num) 1 1 (le_refl 1) [] _ y y).2.2 r h).2).2
  intro j _
  constructor <;> simp [INN.embed, Fin.sum_univ_two]

example : plainServe 1 2 [] [['a']] [fun _ => 0] = .error .valueError := (C243_served _ _ _ _ _).1.2 (by decide)

example (t : List (List (Col × ℝ))) (h : plainServe 1 2 [⟨[1], fun _ => 0⟩] [['a'], ['b']] [fun i => i] = .ok t) :
    ∃ v, (t[0]?.bind (fun r => r[1]?)) = some (['b'], v) ∧ |v - (1 + 0)| ≤ |(1 : ℝ)| * 0 := by
  have := C243_echo 1 2 ⟨[1], fun _ => 0⟩ [['a'], ['b']] [fun i => i] t h 0 (by decide) 1 (by decide) 0 (by intro j hj; simp; omega) (le_refl 0)
  simpa using this

end PyF.InnLoss
