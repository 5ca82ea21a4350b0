import Verif.FkUnits.Props
import Verif.FkRun.Psd

/-!
C340: the noise matrices and the covariance of the filter inside `FK`, for every sequence of fits and predictions.
-/

namespace PyF.FkUnits
open PyF PyF.Fast Matrix

/-- The states an `FK` can be in. -/
inductive Reach (c : Fcfg ℝ) (pinv : Mat c.d → Mat c.d) (q r : ℝ) : St c.d → Prop
  | new : Reach c pinv q r (fresh c q r)
  | fit (s s' : St c.d) (y : List ℝ) (rs : List (Option (List ℝ))) : Reach c pinv q r s → fit c pinv s y = .ok (s', rs) → Reach c pinv q r s'
  | predict (s s' : St c.d) (y : List ℝ) (rs : List (Option (List ℝ))) : Reach c pinv q r s → predict c pinv s y = .ok (s', rs) → Reach c pinv q r s'

/-- What is used of `np.linalg.pinv`: symmetric for a symmetric matrix, and `A⁺ A A⁺ = A⁺`. -/
def PinvOk {d : Nat} (pinv : Mat d → Mat d) : Prop := ∀ S : Mat d, Sᵀ = S → (pinv S)ᵀ = pinv S ∧ pinv S * S * pinv S = pinv S

theorem corrcoef_isCorr {d : Nat} (l : List (Vec d)) (M : Mat d) (h : corrcoef l = some M) : FkRun.IsCorr (k := d + 1) M := by
  unfold corrcoef at h
  split_ifs at h with hn
  injection h with h
  have hv : ¬ ∃ a, FkRun.colCov (k := d + 1) l a a = 0 := fun ⟨a, e⟩ => hn (Or.inr ⟨a, e⟩)
  have hm : ∀ t : List (Vec d), (t.map some).mapM id = some t := by
    intro t
    induction t with
    | nil => rfl
    | cons v t ih =>
      simp only [List.map_cons, List.mapM_cons, id]
      rw [ih]
      rfl
  have hc : FkRun.IsCorr (k := d + 1) (fun a b => cov l a b / Real.sqrt (cov l a a) / Real.sqrt (cov l b b)) := by
    refine FkRun.corrcoef_isCorr (l.map some) _ ?_
    unfold FkRun.corrcoef
    rw [hm l]
    simp only
    rw [if_neg hv]
    rfl
  have e : M = (fun a b => cov l a b / Real.sqrt (cov l a a) / Real.sqrt (cov l b b)) := by
    rw [← h]
    funext a b
    have := abs_le.1 (hc.2.2.1 a b)
    rw [min_eq_right this.2, max_eq_right this.1]
  rw [e]
  exact hc

/-- Noise matrices as given or a correlation matrix and a hundredth of it; positive semidefinite covariance. -/
def Good {d : Nat} (q r : ℝ) (F : Filter d) : Prop :=
  F.P.PosSemidef ∧ ((F.Q = q • 1 ∧ F.R = r • 1) ∨ FkRun.IsCorr (k := d + 1) F.Q ∧ F.R = (1 / 100 : ℝ) • F.Q)

theorem good_noise {d : Nat} {q r : ℝ} (hq : 0 ≤ q) (hr : 0 ≤ r) {F : Filter d} (h : Good q r F) : F.Q.PosSemidef ∧ F.R.PosSemidef := by
  rcases h.2 with ⟨h1, h2⟩ | ⟨h1, h2⟩
  · rw [h1, h2]
    exact ⟨PosSemidef.one.smul hq, PosSemidef.one.smul hr⟩
  · rw [h2]
    exact ⟨FkRun.isCorr_psd h1, (FkRun.isCorr_psd h1).smul (by norm_num)⟩

theorem kalman_psd {d : Nat} (pinv : Mat d → Mat d) (hp : PinvOk pinv) (x y : Vec d) (P Q R : Mat d) (hP : P.PosSemidef) (hQ : Q.PosSemidef) (hR : R.PosSemidef) :
    (kalman pinv x P Q y R).2.PosSemidef := by
  obtain ⟨g1, g2⟩ := hp (P + Q + R) (FkRun.psd_symm (k := d + 1) ((hP.add hQ).add hR))
  exact (FkRun.update_psd (k := d + 1) (P + Q) R (pinv (P + Q + R)) (hP.add hQ) hR g1 g2).2.1

theorem step_good (c : Fcfg ℝ) (pinv : Mat c.d → Mat c.d) (hp : PinvOk pinv) (q r : ℝ) (hq : 0 ≤ q) (hr : 0 ≤ r) (wInit y : List ℝ) (s s' : St c.d) (i : Nat) (o : Option (List ℝ))
    (hs : ∀ F, s.filter = some F → Good q r F) (h : step c pinv wInit y s i = .ok (s', o)) : ∀ F, s'.filter = some F → Good q r F := by
  unfold step at h
  split at h
  · cases h
  · next w hw =>
    split at h
    · next hn =>
      injection h with h
      injection h with h1 h2
      rw [← h1]
      intro F hF
      exact hs F hF
    · next F hF =>
      have g := hs F hF
      obtain ⟨gq, gr⟩ := good_noise hq hr g
      have hk := kalman_psd pinv hp F.x (project c i w) F.P F.Q F.R g.1 gq gr
      simp only at h
      split at h
      · cases h
      · injection h with h
        injection h with h1 h2
        rw [← h1]
        intro F' hF'
        simp only at hF'
        unfold refresh at hF'
        split_ifs at hF' with hi
        · split at hF'
          · cases hF'
          · next Q hQ =>
            injection hF' with hF'
            rw [← hF']
            exact ⟨hk, Or.inr ⟨corrcoef_isCorr _ Q hQ, rfl⟩⟩
        · injection hF' with hF'
          rw [← hF']
          exact ⟨hk, g.2⟩

theorem loop_good (c : Fcfg ℝ) (pinv : Mat c.d → Mat c.d) (hp : PinvOk pinv) (q r : ℝ) (hq : 0 ≤ q) (hr : 0 ≤ r) (wInit y : List ℝ) (is : List Nat) (s s' : St c.d)
    (rs : List (Option (List ℝ))) (hs : ∀ F, s.filter = some F → Good q r F) (h : loop c pinv wInit y s is = .ok (s', rs)) : ∀ F, s'.filter = some F → Good q r F := by
  induction is generalizing s rs with
  | nil =>
    simp only [loop] at h
    injection h with h
    injection h with h1 h2
    rw [← h1]
    exact hs
  | cons i is ih =>
    simp only [loop] at h
    split at h
    · cases h
    · next s1 o h1 =>
      split at h
      · cases h
      · next s2 rs2 h2 =>
        injection h with h
        injection h with e1 e2
        rw [e1] at h2
        exact ih s1 rs2 (step_good c pinv hp q r hq hr wInit y s s1 i o hs h1) h2

theorem fit_good (c : Fcfg ℝ) (pinv : Mat c.d → Mat c.d) (hp : PinvOk pinv) (q r : ℝ) (hq : 0 ≤ q) (hr : 0 ≤ r) (y : List ℝ) (s s' : St c.d)
    (rs : List (Option (List ℝ))) (hs : ∀ F, s.filter = some F → Good q r F) (h : fit c pinv s y = .ok (s', rs)) : ∀ F, s'.filter = some F → Good q r F := by
  unfold fit at h
  split_ifs at h
  exact loop_good c pinv hp q r hq hr _ _ _ { s with hist := s.hist ++ List.replicate y.length 0 } s' rs hs h

/-- C340: after any fits and predictions of a new `FK` that still has a filter, the covariance is positive semidefinite, and the noise matrices are those given or a correlation matrix and a
hundredth of it. -/
theorem C340_psd (c : Fcfg ℝ) (pinv : Mat c.d → Mat c.d) (hp : PinvOk pinv) (q r : ℝ) (hq : 0 ≤ q) (hr : 0 ≤ r) (s : St c.d) (h : Reach c pinv q r s) (F : Filter c.d)
    (hF : s.filter = some F) :
    F.P.PosSemidef ∧ ((F.Q = q • 1 ∧ F.R = r • 1) ∨ FkRun.IsCorr (k := c.d + 1) F.Q ∧ F.R = (1 / 100 : ℝ) • F.Q) := by
  revert F
  induction h with
  | new =>
    intro F hF
    injection hF with hF
    rw [← hF]
    exact ⟨PosSemidef.one.smul (by norm_num), Or.inl ⟨rfl, rfl⟩⟩
  | fit s s' y rs _ h ih => exact fun F hF => fit_good c pinv hp q r hq hr y s s' rs ih h F hF
  | predict s s' y rs _ h ih =>
    unfold predict at h
    split at h
    · cases h
    · injection h with h
      injection h with h1 h2
      rw [← h1]
      exact ih

/-- The variance of every coefficient after a step, from any covariance: at most that before plus the process noise; the covariance is not above the correctly updated one. -/
theorem C340_step {d : Nat} (pinv : Mat d → Mat d) (hp : PinvOk pinv) (x y : Vec d) (P Q R : Mat d) (hP : P.PosSemidef) (hQ : Q.PosSemidef) (hR : R.PosSemidef) :
    (P + Q - (P + Q) * pinv (P + Q + R) * (P + Q) - (kalman pinv x P Q y R).2).PosSemidef ∧ ∀ a, 0 ≤ (kalman pinv x P Q y R).2 a a ∧ (kalman pinv x P Q y R).2 a a ≤ P a a + Q a a := by
  obtain ⟨g1, g2⟩ := hp (P + Q + R) (FkRun.psd_symm (k := d + 1) ((hP.add hQ).add hR))
  obtain ⟨_, p2, p3, p4⟩ := FkRun.update_psd (k := d + 1) (P + Q) R (pinv (P + Q + R)) (hP.add hQ) hR g1 g2
  refine ⟨p3, fun a => ⟨(kalman_psd pinv hp x y P Q R hP hQ hR).diag_nonneg, ?_⟩⟩
  have d1 := p3.diag_nonneg (i := a)
  have d2 := p4.diag_nonneg (i := a)
  rw [Matrix.sub_apply] at d1 d2
  have := Matrix.add_apply P Q a a
  unfold kalman
  simp only
  linarith

end PyF.FkUnits
