import Verif.LatOpt.Model
import Verif.LatOpt.Spec
import Mathlib.Data.List.Basic
import Mathlib.Tactic.Ring

/-! Lemmas for the optimisation in the latent space. -/

namespace PyF.LatOpt
open PyF

variable {X U E Z S K P : Type}

/-- Memory just before step `10 b + i`. -/
theorem traj_block (o : Opt E S) (v : Bool) (f : E → ℚ) (e0 : E) (s0 : S) (b i : ℕ) (hi : i < 10) :
    (pass o v f)^[i] ((Spec.traj (o.step v f) e0 s0 (10 * b)).1, s0, [], []) =
      ((Spec.traj (o.step v f) e0 s0 (10 * b + i)).1, (Spec.traj (o.step v f) e0 s0 (10 * b + i)).2,
        (List.range i).map (fun j => Spec.point (o.step v f) e0 s0 (10 * b + j)),
        (List.range i).map (fun j => f (Spec.point (o.step v f) e0 s0 (10 * b + j)))) := by
  induction i with
  | zero =>
    have h : (Spec.traj (o.step v f) e0 s0 (10 * b)).2 = s0 := by
      cases b with
      | zero => rfl
      | succ b =>
        rw [show 10 * (b + 1) = (10 * b + 9) + 1 by ring]
        simp only [Spec.traj]
        rw [if_pos (by omega)]
    simp [h]
  | succ i ih =>
    rw [Function.iterate_succ_apply', ih (by omega)]
    have h : ¬ (10 * b + i + 1) % 10 = 0 := by omega
    unfold pass
    rw [show 10 * b + (i + 1) = (10 * b + i) + 1 by ring]
    simp only [Spec.traj, if_neg h, List.range_succ, List.map_append, List.map_cons, List.map_nil]
    rfl

theorem iterate_eq (o : Opt E S) (c : Compiled X E K) (x : X) (kw : K) (e0 : E) (s0 : S) (l : ℚ) (b : ℕ) :
    iterate o c x kw (Spec.point (o.step c.vanilla (c.value x kw l)) e0 s0 (10 * b)) s0 l =
      { y := Spec.point (o.step c.vanilla (c.value x kw l)) e0 s0 (10 * b + 10)
        value := c.value x kw l (Spec.point (o.step c.vanilla (c.value x kw l)) e0 s0 (10 * b + 9))
        hist := (List.range 10).map (fun j => Spec.point (o.step c.vanilla (c.value x kw l)) e0 s0 (10 * b + j))
        values := (List.range 10).map (fun j => c.value x kw l (Spec.point (o.step c.vanilla (c.value x kw l)) e0 s0 (10 * b + j)))
        lagrangian := l } := by
  unfold iterate
  have h := traj_block o c.vanilla (c.value x kw l) e0 s0 b 9 (by omega)
  have h10 : (pass o c.vanilla (c.value x kw l))^[10] (Spec.point (o.step c.vanilla (c.value x kw l)) e0 s0 (10 * b), s0, [], []) =
      pass o c.vanilla (c.value x kw l) ((pass o c.vanilla (c.value x kw l))^[9]
        (Spec.point (o.step c.vanilla (c.value x kw l)) e0 s0 (10 * b), s0, [], [])) := Function.iterate_succ_apply' _ _ _
  rw [h10]
  unfold Spec.point at *
  rw [h]
  rfl

theorem range_split (a k : ℕ) : List.range (a + k) = List.range a ++ (List.range k).map (fun j => a + j) := by
  rw [List.range_add]

/-- The loop after `b + 1` blocks: stops after `c` more. -/
theorem loop_eq (o : Opt E S) (c : Compiled X E K) (n : Net X U E Z) (x : X) (kw : K) (tol : ℚ) (e0 : E) (s0 : S) (k b : ℕ)
    (pt : ℕ → E) (hpt : pt = Spec.point (o.step c.vanilla (c.value x kw 0)) e0 s0)
    (hk : 1 ≤ k) :
    ∃ d, 1 ≤ d ∧ d ≤ k ∧
      (∀ j, b + 1 ≤ j → j < b + d → ¬ Spec.improvement (c.value x kw 0 (pt (10 * j - 1))) (c.value x kw 0 (pt (10 * j + 9))) < tol) ∧
      ∃ h, loop o c n x kw tol s0 k
          { y := pt (10 * (b + 1)), old := c.value x kw 0 (pt (10 * b + 9)), ctrlHist := (List.range (10 * (b + 1))).map pt,
            solHist := ((List.range (10 * (b + 1))).map pt).map (n.pred x), lagrangian := 0 } =
          { y := pt (10 * (b + d + 1)), old := c.value x kw 0 (pt (10 * (b + d) + 9)), ctrlHist := (List.range (10 * h)).map pt,
            solHist := ((List.range (10 * h)).map pt).map (n.pred x), lagrangian := 0 } ∧
        ((h = b + d ∧ Spec.improvement (c.value x kw 0 (pt (10 * (b + d) - 1))) (c.value x kw 0 (pt (10 * (b + d) + 9))) < tol) ∨
         (h = b + d + 1 ∧ d = k ∧ ¬ Spec.improvement (c.value x kw 0 (pt (10 * (b + d) - 1))) (c.value x kw 0 (pt (10 * (b + d) + 9))) < tol)) := by
  induction k generalizing b with
  | zero => omega
  | succ k ih =>
    have hb := iterate_eq o c x kw e0 s0 0 (b + 1)
    rw [← hpt] at hb
    have e1 : 10 * (b + 1) - 1 = 10 * b + 9 := by omega
    by_cases hc : Spec.improvement (c.value x kw 0 (pt (10 * (b + 1) - 1))) (c.value x kw 0 (pt (10 * (b + 1) + 9))) < tol
    · refine ⟨1, le_refl _, by omega, fun j h1 h2 => by omega, b + 1, ?_, Or.inl ⟨rfl, hc⟩⟩
      rw [loop, hb]
      simp only
      rw [e1] at hc
      unfold Spec.improvement at hc
      rw [if_pos hc]
      rfl
    · have hist : (List.range (10 * (b + 1))).map pt ++ (List.range 10).map (fun j => pt (10 * (b + 1) + j)) = (List.range (10 * (b + 1 + 1))).map pt := by
        rw [show 10 * (b + 1 + 1) = 10 * (b + 1) + 10 by ring, range_split, List.map_append, List.map_map]
        rfl
      have step : loop o c n x kw tol s0 (k + 1)
          { y := pt (10 * (b + 1)), old := c.value x kw 0 (pt (10 * b + 9)), ctrlHist := (List.range (10 * (b + 1))).map pt,
            solHist := ((List.range (10 * (b + 1))).map pt).map (n.pred x), lagrangian := 0 } =
          loop o c n x kw tol s0 k
          { y := pt (10 * (b + 1 + 1)), old := c.value x kw 0 (pt (10 * (b + 1) + 9)), ctrlHist := (List.range (10 * (b + 1 + 1))).map pt,
            solHist := ((List.range (10 * (b + 1 + 1))).map pt).map (n.pred x), lagrangian := 0 } := by
        rw [loop, hb]
        simp only
        have hc' := hc
        rw [e1] at hc'
        unfold Spec.improvement at hc'
        rw [if_neg hc', ← List.map_append, hist]
        rfl
      rw [step]
      cases k with
      | zero =>
        exact ⟨1, le_refl _, le_refl _, fun j h1 h2 => by omega, b + 1 + 1, rfl, Or.inr ⟨rfl, rfl, hc⟩⟩
      | succ k =>
        obtain ⟨d, h1, h2, h3, h, h4, h5⟩ := ih (b + 1) (by omega)
        have ea : b + 1 + d = b + (d + 1) := by ring
        rw [ea] at h4 h5
        refine ⟨d + 1, by omega, by omega, ?_, h, h4, ?_⟩
        · intro j g1 g2
          by_cases hj : j = b + 1
          · rw [hj]
            exact hc
          · exact h3 j (by omega) (by omega)
        · rcases h5 with h5 | ⟨h5, h6, h7⟩
          · exact Or.inl h5
          · exact Or.inr ⟨h5, by omega, h7⟩

end PyF.LatOpt
