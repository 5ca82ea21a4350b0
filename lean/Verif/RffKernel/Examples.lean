import Verif.RffKernel.Props
import Mathlib.Probability.Independence.InfinitePi

/-! Random numbers that meet the hypotheses of C292, for every number of features. -/

namespace PyF.RffKernel
open PyF PyF.Rff MeasureTheory ProbabilityTheory

/-- All numbers drawn for `d + 1` features of `p` columns. -/
abbrev Space (d p : ℕ) := Fin (d + 1) → (Fin p → ℝ) × ℝ

/-- All of them independent. -/
noncomputable def space (d p : ℕ) : Measure (Space d p) := Measure.pi (fun _ => (normals p).prod phase)

noncomputable instance (d p : ℕ) : IsProbabilityMeasure (space d p) := by
  unfold space
  infer_instance

/-- Normal number `i` of feature `c`. -/
noncomputable def num {d p : ℕ} (ω : Space d p) (i c : ℕ) : ℝ := if h : i < p then (ω (Fin.ofNat _ c)).1 ⟨i, h⟩ else 0

/-- The generators returning them. -/
noncomputable def env (std : ℝ) {d p : ℕ} (ω : Space d p) : Env where
  gen := fun _ _ i c => std * num ω i c
  unif := fun _ c => (ω (Fin.ofNat _ c)).2
  learn := fun _ _ _ => []

/-- A new object with `d + 1` features. -/
def new (d : ℕ) : Obj := ⟨d + 1, none, none, none, 0⟩

theorem column_eq (d p : ℕ) (c : ℕ) : (fun ω : Space d p => ((fun i : Fin p => num ω i c), (ω (Fin.ofNat _ c)).2)) = fun ω => ω (Fin.ofNat _ c) := by
  funext ω
  refine Prod.ext ?_ rfl
  funext i
  simp [num]

noncomputable def draws (std : ℝ) (d p : ℕ) : Draws (space d p) (env std) (new d) std p where
  N := num
  gen := fun _ _ _ => rfl
  law := by
    intro c _
    show (space d p).map (fun ω : Space d p => ((fun i : Fin p => num ω i c), (ω (Fin.ofNat _ c)).2)) = _
    rw [column_eq]
    exact (measurePreserving_eval (fun _ : Fin (d + 1) => (normals p).prod phase) (Fin.ofNat _ c)).map_eq

theorem draws_independent (std : ℝ) (d p : ℕ) : (draws std d p).Independent := by
  intro c hc c' hc' hne
  show IndepFun (fun ω : Space d p => ((fun i : Fin p => num ω i c), (ω (Fin.ofNat _ c)).2)) (fun ω : Space d p => ((fun i : Fin p => num ω i c'), (ω (Fin.ofNat _ c')).2)) (space d p)
  rw [column_eq, column_eq]
  have h := iIndepFun_pi (μ := fun _ : Fin (d + 1) => (normals p).prod phase) (X := fun _ z => z) (fun _ => aemeasurable_id)
  refine h.indepFun ?_
  intro h2
  have := congrArg Fin.val h2
  change c < d + 1 at hc
  change c' < d + 1 at hc'
  simp [Fin.ofNat, Nat.mod_eq_of_lt hc, Nat.mod_eq_of_lt hc'] at this
  exact hne this

/-- Ten thousand features of two columns: within 0.0004 in mean square. -/
example (x y : List ℝ) : ∃ zx zy : Space 9999 2 → List ℝ, (∀ ω, conv (setWeight (env (1 / 10) ω) (new 9999) 2) ⟨2, [x, y]⟩ = .ok [zx ω, zy ω]) ∧
    ∫ ω, (2 / ((new 9999).dim : ℝ) * inner (zx ω) (zy ω) - gaussKernel (1 / 10) 2 x y) ^ 2 ∂(space 9999 2) ≤ 4 / ((new 9999).dim : ℝ) :=
  C292_accuracy (space 9999 2) (env (1 / 10)) (new 9999) (1 / 10) 2 (draws (1 / 10) 9999 2) (draws_independent _ _ _) (by decide) rfl rfl x y

/-- Sixteen features (the default) of a row with itself: the expected sum of squares is 8. -/
example (x : List ℝ) : ∃ zx zy : Space 15 3 → List ℝ, (∀ ω, conv (setWeight (env (1 / 10) ω) (new 15) 3) ⟨3, [x, x]⟩ = .ok [zx ω, zy ω]) ∧
    ∫ ω, inner (zx ω) (zy ω) ∂(space 15 3) = 8 := by
  obtain ⟨zx, zy, h1, _, h2⟩ := C292_kernel (space 15 3) (env (1 / 10)) (new 15) (1 / 10) 3 (draws (1 / 10) 15 3) rfl rfl x x
  refine ⟨zx, zy, h1, ?_⟩
  rw [h2]
  norm_num [gaussKernel, new]

end PyF.RffKernel
