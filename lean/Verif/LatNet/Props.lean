import Verif.LatNet.Model
import Verif.ICNN.Props

/-!
C252: bounds of the forecasts bound the controls. C253: they bound the variance. C254: which latent networks can be evaluated.
-/

namespace PyF.LatNet

open PyF PyF.ICNN

/-- A bounded output lies strictly between the bounds. -/
theorem bound_between (lo hi v : ℝ) (h : lo < hi) : lo < bound (some (lo, hi)) v ∧ bound (some (lo, hi)) v < hi := by
  simp only [bound]
  have h0 := Real.sigmoid_pos v
  have h1 := Real.sigmoid_lt_one v
  constructor <;> nlinarith

theorem apply_between {c : Cfg} {lo hi : ℝ} (hc : c.zb = some (lo, hi)) (h : lo < hi) {lays : List LayerP} (hne : lays ≠ []) {xd : ℕ} {x y o : ℕ → ℝ}
    (ho : apply c lays xd x y = .ok o) (j : ℕ) : lo < o j ∧ o j < hi := by
  unfold apply at ho
  split at ho
  · rw [← Except.ok.inj ho, forward_bound c c.lat lays hne, hc]
    exact bound_between _ _ _ h
  · cases ho

theorem apply_total (c : Cfg) (hy : yDim c = c.ny) (lays : List LayerP) (xd : ℕ) (x y : ℕ → ℝ) : ∃ o, apply c lays xd x y = .ok o := by
  unfold apply
  rw [if_pos]
  · exact ⟨_, rfl⟩
  · rw [shapesOk_iff, hy]
    exact Or.inr ⟨compat_self _, compat_self _⟩

theorem ydEnc (a : Args) (zb : Option (ℝ × ℝ)) : yDim (cfgEnc a zb) = (cfgEnc a zb).ny := by
  cases h : a.aug <;> simp [cfgEnc, yDim, hiddenY, h]

theorem ydPred (a : Args) (zb : Option (ℝ × ℝ)) : yDim (cfgPred a zb) = (cfgPred a zb).ny := by
  cases h : a.aug <;> simp [cfgPred, yDim, Args.embY, h, Nat.mul_comm]

theorem ydDec (a : Args) (zb : Option (ℝ × ℝ)) : yDim (cfgDec a zb) = (cfgDec a zb).ny := by
  cases h : a.aug <;> simp [cfgDec, yDim, Args.embY, h, Nat.mul_comm]

/-- C252: with `z_min < z_max` the latent network can be evaluated, and the embedding and the reconstructed controls lie strictly between the bounds given for the forecasts, so a
control outside of them is missed by more than its distance from them. -/
theorem C252_confined (a : Args) (lo hi : ℝ) (h : lo < hi) (l : Layers) (he : l.enc ≠ []) (hd : l.dec ≠ []) (hp : l.pred ≠ []) (xd : ℕ) (x y : ℕ → ℝ) :
    ∃ z e r, call a (some (lo, hi)) l xd x y = .ok (z, e, r) ∧ (∀ j, lo < z j ∧ z j < hi) ∧ (∀ j, lo < e j ∧ e j < hi) ∧ (∀ j, lo < r j ∧ r j < hi) ∧
      ∀ j, (y j ≤ lo → lo - y j < |r j - y j|) ∧ (hi ≤ y j → y j - hi < |r j - y j|) := by
  obtain ⟨e, ee⟩ := apply_total (cfgEnc a (some (lo, hi))) (ydEnc a _) l.enc xd x y
  obtain ⟨z, ez⟩ := apply_total (cfgPred a (some (lo, hi))) (ydPred a _) l.pred xd x e
  obtain ⟨r, er⟩ := apply_total (cfgDec a (some (lo, hi))) (ydDec a _) l.dec xd x e
  have hr := apply_between (c := cfgDec a (some (lo, hi))) rfl h hd er
  refine ⟨z, e, r, ?_, apply_between (c := cfgPred a (some (lo, hi))) rfl h hp ez, apply_between (c := cfgEnc a (some (lo, hi))) rfl h he ee, hr, ?_⟩
  · unfold call
    rw [ee]
    simp only
    rw [ez]
    simp only
    rw [er]
  · intro j
    obtain ⟨h1, h2⟩ := hr j
    constructor
    · intro hy
      rw [abs_of_pos (by linarith)]
      linarith
    · intro hy
      rw [abs_of_neg (by linarith)]
      linarith

/-- C252 (optimisation): whatever embedding the optimisation of the controls ends with, the controls decoded from it lie strictly between the bounds of the forecasts. -/
theorem C252_decoded (a : Args) (lo hi : ℝ) (h : lo < hi) (l : Layers) (hd : l.dec ≠ []) (xd : ℕ) (x emb : ℕ → ℝ) :
    ∃ r, decode a (some (lo, hi)) l xd x emb = .ok r ∧ ∀ j, lo < r j ∧ r j < hi := by
  obtain ⟨r, er⟩ := apply_total (cfgDec a (some (lo, hi))) (ydDec a _) l.dec xd x emb
  exact ⟨r, er, apply_between (c := cfgDec a (some (lo, hi))) rfl h hd er⟩

theorem softplus_strictMono : StrictMono softplus := by
  intro u v h
  unfold softplus
  apply Real.log_lt_log
  · have := Real.exp_pos u
    linarith
  · have := Real.exp_lt_exp.mpr h
    linarith

/-- C253: with bounds a probabilistic network forecasts only variances between the softplus of the bounds, whatever the weights and inputs. -/
theorem C253_variance (c : Cfg) (lo hi : ℝ) (hc : c.zb = some (lo, hi)) (h : lo < hi) (nOut sl : ℕ) (lays sigs : List LayerP) (hs : sigs ≠ []) (xd : ℕ) (x y o : ℕ → ℝ)
    (ho : applyProb c nOut sl lays sigs xd x y = .ok o) (j : ℕ) (hj : nOut ≤ j) :
    Real.log (1 + Real.exp lo) + 1 / 10 ^ 10 < o j ∧ o j < Real.log (1 + Real.exp hi) + 1 / 10 ^ 10 := by
  unfold applyProb at ho
  cases ha : apply c lays xd x y with
  | error e => rw [ha] at ho; cases ho
  | ok z =>
    rw [ha] at ho
    simp only at ho
    split at ho
    · rw [← Except.ok.inj ho]
      simp only [if_neg (not_lt.mpr hj)]
      rw [forward_bound c sl sigs hs, hc]
      obtain ⟨h1, h2⟩ := bound_between lo hi (forward { c with zb := none } sl sigs xd x sl (fun _ => 0) y (j - nOut)) h
      have g1 := softplus_strictMono h1
      have g2 := softplus_strictMono h2
      have e10 : ((10 : ℝ)⁻¹) ^ 10 = 1 / 10 ^ 10 := by norm_num
      rw [e10]
      unfold softplus at g1 g2 ⊢
      constructor <;> linarith
    · cases ho

/-! ### Widths -/

theorem compat_iff (a b : ℕ) : compat a b = true ↔ a = b ∨ a = 1 ∨ b = 1 := by
  simp [compat, or_assoc]

/-- One more layer does not change whether the loop runs. -/
theorem loopWidth_eq (lat ny : ℕ) (bd : Option ℕ) (dy hid out n : ℕ) (hn : 0 < n) :
    loopWidth lat ny bd dy hid out n hid = if compat hid lat && compat dy ny then boundWidth bd out else .error .typeError := by
  induction n with
  | zero => omega
  | succ n ih =>
    unfold loopWidth
    by_cases h : (compat hid lat && compat dy ny) = true
    · rw [if_pos h, if_pos h]
      by_cases h0 : n = 0
      · rw [if_pos h0]
      · rw [if_neg h0, ih (by omega), if_pos h]
    · rw [if_neg h, if_neg h]

/-- C254: without `probabilistic` and without bounds every latent network can be evaluated, with the widths asked for. -/
theorem C254_plain (a : Args) (nE nP nD : ℕ) (hE : 0 < nE) (hP : 0 < nP) (hD : 0 < nD) : callWidth a false none nE nP nD = .ok (a.nOut, a.nEmb, a.nCtrl) := by
  have h1 : (if a.aug = true then 2 * a.nEmb else a.nEmb) = a.embY := by unfold Args.embY; split <;> omega
  unfold callWidth moduleWidth
  simp only [loopWidth_eq _ _ _ _ _ _ _ hE, loopWidth_eq _ _ _ _ _ _ _ hP, loopWidth_eq _ _ _ _ _ _ _ hD, boundWidth, compat_self, hiddenY, Bool.and_self, if_true,
    Bool.false_eq_true, if_false, Bool.true_and, h1]

/-- C254 (defect, `probabilistic`): the encoder and the decoder get a variance part of their own, so that a probabilistic latent network can be evaluated only with a single
embedding and without augmented controls (and with numbers of outputs and of controls that fit `n_latent`, if it is given). -/
theorem C254_probabilistic (a : Args) (nE nP nD : ℕ) (hE : 0 < nE) (hP : 0 < nP) (hD : 0 < nD) (hemb : 1 ≤ a.nEmb) :
    (∃ w, callWidth a true none nE nP nD = .ok w) ↔
      a.aug = false ∧ a.nEmb = 1 ∧ ∀ l, a.nLatent = some l → l = 1 ∨ (a.nOut = 1 ∨ a.nOut = l) ∧ (a.nCtrl = 1 ∨ a.nCtrl = l) := by
  obtain ⟨nL, nOut, nEmb, nCtrl, nx, aug⟩ := a
  simp only at hemb
  have hC : ∀ l : ℕ, compat l l = true := compat_self
  unfold callWidth moduleWidth
  simp only [loopWidth_eq _ _ _ _ _ _ _ hE, loopWidth_eq _ _ _ _ _ _ _ hP, loopWidth_eq _ _ _ _ _ _ _ hD, boundWidth, hC, hiddenY, if_true, Bool.true_and, Bool.and_true,
    Args.latEnc, Args.latDec, Args.latPred, Args.embY]
  cases aug
  · simp only [Bool.false_eq_true, if_false, hC, if_true, Bool.and_true, true_and]
    by_cases h1 : nEmb = 1
    · subst h1
      have c1 : ∀ l : ℕ, compat 1 l = true := fun l => by simp [compat]
      have c2 : ∀ l : ℕ, compat l 1 = true := fun l => by simp [compat]
      simp only [c1, c2, if_true, true_and, Bool.and_true]
      cases nL with
      | none => simp [hC]
      | some l =>
        simp only [Option.getD_some, Option.some.injEq, forall_eq']
        by_cases hO : compat nOut l = true
        · by_cases hU : compat nCtrl l = true
          · simp only [if_pos hO, if_pos hU, Except.ok.injEq, exists_eq', true_iff]
            have h1 := (compat_iff nOut l).mp hO
            have h2 := (compat_iff nCtrl l).mp hU
            omega
          · simp only [if_pos hO, if_neg hU, reduceCtorEq, exists_false, false_iff]
            have := (compat_iff nCtrl l).not.mp hU
            omega
        · simp only [if_neg hO, reduceCtorEq, exists_false, false_iff]
          have := (compat_iff nOut l).not.mp hO
          omega
    · have : compat (nEmb + nEmb) nEmb = false := by
        rw [Bool.eq_false_iff]
        intro h
        have := (compat_iff _ _).mp h
        omega
      simp only [h1, false_and, iff_false, not_exists]
      intro w
      by_cases hl : compat nEmb (nL.getD nEmb) = true
      · simp only [if_pos hl, this, Bool.and_false, Bool.false_eq_true, if_false, reduceCtorEq, not_false_eq_true]
      · simp only [if_neg hl, reduceCtorEq, not_false_eq_true]
  · simp only [if_true, hC, Bool.and_true, Bool.true_eq_false, false_and, iff_false, not_exists]
    intro w
    have : compat (2 * (nEmb + nEmb)) (nEmb * 2) = false := by
      rw [Bool.eq_false_iff]
      intro h
      have := (compat_iff _ _).mp h
      omega
    by_cases hl : compat nEmb (nL.getD nEmb) = true
    · simp only [if_pos hl, this, Bool.and_false, Bool.false_eq_true, if_false, reduceCtorEq, not_false_eq_true]
    · simp only [if_neg hl, reduceCtorEq, not_false_eq_true]

/-- C254 (defect, bounds per target): the arrays `z_min`, `z_max` are given to the encoder and to the decoder too; with more than one target the network can be evaluated only if the
numbers of embeddings and of controls are the number of targets or one. -/
theorem C254_bounds (a : Args) (nE nP nD : ℕ) (hE : 0 < nE) (hP : 0 < nP) (hD : 0 < nD) (hO : 2 ≤ a.nOut) :
    (∃ w, callWidth a false (some a.nOut) nE nP nD = .ok w) ↔ (a.nEmb = a.nOut ∨ a.nEmb = 1 ∧ a.aug = false) ∧ (a.nCtrl = a.nOut ∨ a.nCtrl = 1) := by
  obtain ⟨nL, nOut, nEmb, nCtrl, nx, aug⟩ := a
  simp only at hO
  have hC : ∀ l : ℕ, compat l l = true := compat_self
  have hn1 : nOut ≠ 1 := by omega
  have hb : ∀ w, boundWidth (some nOut) w = if w = nOut ∨ w = 1 then .ok nOut else .error .typeError := by
    intro w
    unfold boundWidth
    simp only
    by_cases h : w = nOut ∨ w = 1
    · rw [if_pos h, if_pos ((compat_iff _ _).mpr (by omega))]
      unfold bdim
      split
      · rfl
      · congr 1; omega
    · rw [if_neg h, if_neg (fun hc => h (by have := (compat_iff _ _).mp hc; omega))]
  unfold callWidth moduleWidth
  simp only [loopWidth_eq _ _ _ _ _ _ _ hE, loopWidth_eq _ _ _ _ _ _ _ hP, loopWidth_eq _ _ _ _ _ _ _ hD, hb, hC, hiddenY, if_true, Bool.true_and, Bool.and_true,
    Bool.false_eq_true, if_false, Args.embY, true_or]
  by_cases h1 : nEmb = nOut ∨ nEmb = 1
  · simp only [if_pos h1]
    by_cases h2 : nCtrl = nOut ∨ nCtrl = 1
    · simp only [h2, if_true, and_true]
      cases aug
      · have : compat nOut nEmb = true := (compat_iff _ _).mpr (by omega)
        simp only [Bool.false_eq_true, if_false, this, if_true, Except.ok.injEq, exists_eq', true_iff, and_true]
        exact h1
      · simp only [if_true, Bool.true_eq_false, and_false, or_false]
        by_cases h3 : nEmb = nOut
        · have : compat (2 * nOut) (nEmb * 2) = true := (compat_iff _ _).mpr (by omega)
          simp only [if_pos this, Except.ok.injEq, exists_eq', true_iff]
          exact h3
        · have : compat (2 * nOut) (nEmb * 2) = false := by
            rw [Bool.eq_false_iff]
            intro hc
            have := (compat_iff _ _).mp hc
            omega
          simp [this, h3]
    · simp only [h2, if_false, and_false, iff_false, not_exists]
      intro w
      by_cases hl : compat (if aug = true then 2 * nOut else nOut) (if aug = true then nEmb * 2 else nEmb) = true
      · simp only [if_pos hl, reduceCtorEq, not_false_eq_true]
      · simp only [if_neg hl, reduceCtorEq, not_false_eq_true]
  · simp only [if_neg h1, reduceCtorEq, exists_false, false_iff]
    rintro ⟨h, -⟩
    exact h1 (h.imp_right And.left)

end PyF.LatNet
