import Verif.Recon.More
import Mathlib.LinearAlgebra.Matrix.PosDef

namespace PyF.Recon
open PyF Matrix

/-- The hierarchy of the test suite: 20 above 21 and 22, these above two bottom series each. -/
def exH : Hier Nat := [(20, [21, 22]), (21, [0, 1]), (22, [2, 3])]
def exNames : List Nat := [0, 1, 2, 3, 20, 21, 22]
/-- The same series, the bottom ones in another order of appearance. -/
def exNames' : List Nat := [20, 21, 22, 1, 0, 2, 3]

-- C63
theorem exFlat : unrollDict exH 10 = .ok [[0, 1, 2, 3], [0, 1], [2, 3]] := rfl
example : Below exH 20 3 ∧ ¬ Below exH 21 3 := by
  obtain ⟨_, h⟩ := C63_unrolled exH 10 _ exFlat
  constructor
  · obtain ⟨l, h1, h2⟩ := h 0 20 rfl
    cases h1
    exact (h2 3).1 (by decide)
  · obtain ⟨l, h1, h2⟩ := h 1 21 rfl
    cases h1
    exact fun hb => absurd ((h2 3).2 hb) (by decide)
example : ∃ flat, unrollDict exH 3 = .ok flat := by
  refine C63_acyclic_succeeds exH (fun k => if k = 20 then 2 else 1) 3 ?_ ?_
  · intro k l hl
    have hk : k = 20 ∨ k = 21 ∨ k = 22 := by
      by_contra hc
      have : exH.lookup k = none := by
        simp only [not_or] at hc
        have e1 : (k == 20) = false := by simpa using hc.1
        have e2 : (k == 21) = false := by simpa using hc.2.1
        have e3 : (k == 22) = false := by simpa using hc.2.2
        simp only [exH, List.lookup_cons, e1, e2, e3, List.lookup_nil]
      rw [this] at hl; cases hl
    rcases hk with rfl | rfl | rfl <;> (cases hl; exact ⟨by decide, by decide⟩)
  · decide
example : ∀ flat, unrollDict [(5, [6, 0]), (6, [5])] 1000 ≠ .ok flat :=
  C63_cyclic_refused [(5, [6, 0]), (6, [5])] 5 (by decide) (Reaches.more (c := 6) (l := [6, 0]) rfl (by decide) (by decide) (Reaches.step (l := [5]) rfl (by decide) (by decide))) 1000

-- C60, C61: fitting succeeds with the identity and the result is coherent
theorem exFit (y yhat : Nat → Nat → Nat → ℝ) : ∃ m, fit exH 10 exNames (fun _ _ => 1) y yhat [0, 1] = .ok m := C61_fit_succeeds exH 10 _ exFlat exNames (by decide) _ (fun _ _ => Matrix.PosDef.one) y yhat _
example (y yhat : Nat → Nat → Nat → ℝ) (row : Nat → ℝ) : ∃ m l, fit exH 10 exNames (fun _ _ => 1) y yhat [0, 1] = .ok m ∧ predict exH m exNames row = .ok l ∧ CoherentRow exH l := by
  obtain ⟨m, hm⟩ := exFit y yhat
  obtain ⟨l, h1, _, h2⟩ := C60_predict_coherent exH (by decide) 10 exNames exNames _ y yhat _ m hm (by decide) rfl row
  exact ⟨m, l, hm, h1, h2⟩

-- C62: swapping the order of appearance of series 0 and 1 mislabels some forecast
example (y yhat : Nat → Nat → Nat → ℝ) : ∃ m, fit exH 10 exNames (fun _ _ => 1) y yhat [0, 1] = .ok m ∧
    ¬ ∀ row l, predict exH m exNames' row = .ok l → ∀ c ∈ exNames, l.lookup c = ((order exH exNames).zip (m.s.valueList m.P row)).lookup c := by
  obtain ⟨m, hm⟩ := exFit y yhat
  refine ⟨m, hm, ?_⟩
  rw [((C62_labels exH (by decide) 10 exNames exNames' _ y yhat [0, 1] (by decide) m hm (by decide)).2.2 (by intro c; simp only [exNames, exNames', List.mem_cons, List.not_mem_nil, or_false]; tauto)).2]
  decide
example (y yhat : Nat → Nat → Nat → ℝ) (row : Nat → ℝ) : ∃ m, fit exH 10 exNames (fun _ _ => 1) y yhat [0, 1] = .ok m ∧ predict exH m [20, 21, 22, 0, 1, 2] row = .error .keyError := by
  obtain ⟨m, hm⟩ := exFit y yhat
  exact ⟨m, hm, (C62_labels exH (by decide) 10 exNames [20, 21, 22, 0, 1, 2] _ y yhat [0, 1] (by decide) m hm (by decide)).1 ⟨3, by decide, by decide⟩ row⟩

-- C64: two weights, one aggregate above one bottom series: the matrices of the two steps differ
def exH1 : Hier Nat := [(1, [0])]
noncomputable def exW : (s : Sys Nat) → Nat → Matrix s.Idx s.Idx ℝ := fun _ t => Matrix.diagonal (fun i => if t = 0 then 1 else Sum.elim (fun _ => 2) (fun _ => 1) i)
theorem exW_pos (s : Sys Nat) (t : Nat) : (exW s t).PosDef := by
  refine Matrix.PosDef.diagonal ?_
  intro i
  by_cases ht : t = 0
  · simp [ht]
  · cases i <;> simp [ht]
example (y yhat : Nat → Nat → Nat → ℝ) : ∃ m P0, fit exH1 10 [0, 1] exW y yhat [0, 1] = .ok m ∧ m.s.fitP (exW m.s 0) = .ok P0 ∧ m.P ≠ P0 := by
  obtain ⟨m, hm⟩ := C61_fit_succeeds exH1 10 [[0]] rfl [0, 1] (by decide) exW exW_pos y yhat [0, 1]
  obtain ⟨h1, _, h3⟩ := C64_last_matrix exH1 (by decide) 10 [0, 1] exW y yhat [0] 1 (by decide) m hm
  obtain ⟨P0, hP0, _, _⟩ := h3 0 (by decide)
  refine ⟨m, P0, hm, hP0, ?_⟩
  intro he
  have hs : m.s = ⟨[1], [[0]], [0]⟩ := by
    have := (fit_system hm).2.1
    have h' : system exH1 10 (order exH1 [0, 1]) = .ok ⟨[1], [[0]], [0]⟩ := rfl
    rw [h'] at this
    exact (Except.ok.inj this).symm
  obtain ⟨s, P, errs⟩ := m
  simp only at hs
  subst hs
  simp only at *
  have key : ∀ (W : Matrix (Sys.Idx (⟨[1], [[0]], [0]⟩ : Sys Nat)) (Sys.Idx (⟨[1], [[0]], [0]⟩ : Sys Nat)) ℝ) (P : Matrix _ _ ℝ), Sys.fitP ⟨[1], [[0]], [0]⟩ W = .ok P →
      (Sys.S (⟨[1], [[0]], [0]⟩ : Sys Nat))ᵀ * W * (Sys.S ⟨[1], [[0]], [0]⟩) * P = (Sys.S (⟨[1], [[0]], [0]⟩ : Sys Nat))ᵀ * W := by
    intro W P hP
    obtain ⟨_, hd, e⟩ := fitP_left_inv hP
    rw [e, ← Matrix.mul_assoc, Matrix.mul_nonsing_inv _ (isUnit_iff_ne_zero.2 hd), Matrix.one_mul]
  have k1 := congrFun (congrFun (key _ _ h1) 0) (.inl 0)
  have k0 := congrFun (congrFun (key _ _ hP0) 0) (.inl 0)
  rw [← he] at k0
  have hS : ∀ i j, Sys.S (⟨[1], [[0]], [0]⟩ : Sys Nat) i j = 1 := by
    intro i j
    have h0 : ∀ k : Fin 1, k = 0 := fun k => Subsingleton.elim _ _
    cases i with
    | inl i => rw [Sys.S, Matrix.fromRows_apply_inl, Sys.A, if_pos]; rw [h0 i, h0 j]; decide
    | inr i => rw [Sys.S, Matrix.fromRows_apply_inr, Matrix.one_apply, if_pos]; rw [h0 i, h0 j]
  simp [Matrix.mul_apply, exW, hS, Matrix.transpose_apply, Fintype.sum_sum_type, Matrix.diagonal] at k1 k0
  linarith

-- C109
example : bayesRows (fun i => i) ⟨[20, 21, 22], [[0, 1, 2, 3], [0, 1], [2, 3]], [0, 1, 2, 3]⟩ [20, 21, 22, 0, 1, 2, 3] = .error .valueError := rfl
example : bayesRows (fun i => i + 100) ⟨[20], [[0, 1]], [0, 1]⟩ [20, 0, 1] = .error .valueError :=
  C109_bayes_always_fails _ _ _ ⟨20, by decide, by decide⟩ (by intro c hc hb i; simp only [List.mem_cons, List.not_mem_nil, or_false] at hc hb; omega)

-- C110: training rows at hours 0, 1; the rows to predict at hours 1, 0 get the errors of hours 0, 1
example : (scenarios [0, 1] (fun r (_ : Nat) => (r : ℝ)) 3 (fun _ _ => 0) (fun _ _ _ => 0)).isOk = false := rfl
example : ∃ l, scenarios [0, 1] (fun r (_ : Nat) => (r : ℝ)) 2 (fun _ _ => 10) (fun _ _ _ => 0) = .ok l ∧ (l.map (·.1)).Perm [0, 1] := by
  obtain ⟨l, h1, h2, _⟩ := (C110_scenario_rows [0, 1] (by decide) (fun r (_ : Nat) => (r : ℝ)) 2 (fun _ _ => 10) (fun _ _ _ => 0) (by intro hour _ _ hne; exact List.length_pos_iff.2 hne)).2 rfl
  exact ⟨l, h1, h2⟩

-- C111: coherent training targets, two rows
example (yhat : Nat → Nat → Nat → ℝ) (rows : Nat → Nat → ℝ) : ∃ m l, fit exH1 10 [0, 1] (fun _ _ => 1) (fun _ _ _ => 3) yhat [0, 1] = .ok m ∧
    predictScenarios exH1 m false [0, 1] [5, 5] 2 rows (fun _ _ k => k) 0 = .ok l ∧ ∀ i scen, (i, scen) ∈ l → ∀ sc, CoherentFn exH1 m.s.bottoms (scen sc) := by
  obtain ⟨m, hm⟩ := C61_fit_succeeds exH1 10 [[0]] rfl [0, 1] (by decide) (fun _ _ => 1) (fun _ _ => Matrix.PosDef.one) (fun _ _ _ => 3) yhat [0, 1]
  have hl : ∃ l, predictScenarios exH1 m false [0, 1] [5, 5] 2 rows (fun _ _ k => k) 0 = .ok l := by
    unfold predictScenarios
    rw [← (fit_system hm).2.2, check_self]
    exact ⟨_, rfl⟩
  obtain ⟨l, hl⟩ := hl
  refine ⟨m, l, hm, hl, ?_⟩
  refine C111_scenarios_coherent exH1 (by decide) 10 [0, 1] _ _ yhat [0, 1] (by decide) m hm 0 (by decide) ?_ rows [5, 5] 2 (fun _ _ k => k) _ hl
  intro r a ha
  have hs : m.s.bottoms = [0] := by
    rw [(system_fields (fit_system hm).2.1).2.1]
    rfl
  have ha' : a = 1 := by simpa [exH1, keys] using ha
  subst ha'
  have : Below exH1 1 0 := Below.child (l := [0]) rfl (by decide) (by decide)
  rw [hs]
  simp [this]

-- C112: levels of the test hierarchy; a chain listed from below loses its top
example : (match levels exH 10 with | .ok l => decide ((exNames.map (assigned l)) = [some 2, some 2, some 2, some 2, some 0, some 1, some 1]) | .error _ => false) = true := by decide
/-- C112: 3 is below 2 and also the last child of the root 1. -/
example : (match levels [(1, [2, 3]), (2, [4, 3])] 10 with | .ok l => decide (l.head? = some (1, 0) ∧ assigned l 3 = some 1 ∧ assigned l 4 = some 2) | .error _ => false) = true := by decide
example : (match levels [(2, [3]), (1, [2])] 10 with | .ok l => decide (assigned l 1 = none ∧ assigned l 2 = some 0) | .error _ => false) = true := by decide

end PyF.Recon
