import Verif.FkRun.Noise
import Verif.Kalman.Props

/-!
C339: the covariance of the filter of `FK_multi`, with the singular noise matrices of C338.
-/

namespace PyF.FkRun
open PyF Matrix

variable {k : ℕ} {E F : Type}

/-- What is used of `np.linalg.pinv` (two of the properties of the pseudo-inverse): symmetric for a symmetric matrix, and `A⁺ A A⁺ = A⁺`. -/
def PinvOk (c : Cfg k) : Prop := ∀ S : Mat k, Sᵀ = S → (c.pinv S)ᵀ = c.pinv S ∧ c.pinv S * S * c.pinv S = c.pinv S

theorem psd_symm {M : Mat k} (h : M.PosSemidef) : Mᵀ = M := by
  have := h.isHermitian
  rwa [IsHermitian, conjTranspose_eq_transpose_of_trivial] at this

/-- One update with gain `S0 G`: the Joseph formula gives the updated covariance, and what the code returns lies below it. -/
theorem update_psd (S0 R G : Mat k) (h0 : S0.PosSemidef) (hR : R.PosSemidef) (hG : Gᵀ = G) (hp : G * (S0 + R) * G = G) :
    (S0 - S0 * G * S0).PosSemidef ∧
    ((1 - S0 * G) * ((S0 - S0 * G * S0) * (1 - S0 * G)ᵀ) + S0 * G * (R * (S0 * G)ᵀ)).PosSemidef ∧
    ((S0 - S0 * G * S0) - ((1 - S0 * G) * ((S0 - S0 * G * S0) * (1 - S0 * G)ᵀ) + S0 * G * (R * (S0 * G)ᵀ))).PosSemidef ∧
    (S0 - (S0 - S0 * G * S0)).PosSemidef := by
  have s0 := psd_symm h0
  have hK : (S0 * G)ᵀ = G * S0 := by rw [transpose_mul, hG, s0]
  have h1 : (1 - S0 * G)ᵀ = 1 - G * S0 := by rw [transpose_sub, transpose_one, hK]
  have hp' : G * S0 * G + G * R * G = G := by
    have e : G * S0 * G + G * R * G = G * (S0 + R) * G := by noncomm_ring
    rw [e, hp]
  have joseph : (1 - S0 * G) * (S0 * (1 - S0 * G)ᵀ) + S0 * G * (R * (S0 * G)ᵀ) = S0 - S0 * G * S0 := by
    rw [h1, hK]
    have e : (1 - S0 * G) * (S0 * (1 - G * S0)) + S0 * G * (R * (G * S0)) = S0 - S0 * G * S0 - S0 * G * S0 + S0 * (G * S0 * G + G * R * G) * S0 := by
      noncomm_ring
    rw [e, hp']
    abel
  have hP1 : (S0 - S0 * G * S0).PosSemidef := by
    rw [← joseph]
    exact (Kalman.conj_psd h0 _).add (Kalman.conj_psd hR _)
  have hD : (S0 * G * S0).PosSemidef := by
    have e : S0 * G * S0 = S0 * G * ((S0 + R) * (S0 * G)ᵀ) := by
      rw [hK]
      calc S0 * G * S0 = S0 * (G * (S0 + R) * G) * S0 := by rw [hp]
        _ = S0 * G * ((S0 + R) * (G * S0)) := by noncomm_ring
    rw [e]
    exact Kalman.conj_psd (h0.add hR) _
  refine ⟨hP1, (Kalman.conj_psd hP1 _).add (Kalman.conj_psd hR _), ?_, ?_⟩
  · have e : (S0 - S0 * G * S0) - ((1 - S0 * G) * ((S0 - S0 * G * S0) * (1 - S0 * G)ᵀ) + S0 * G * (R * (S0 * G)ᵀ))
        = (1 - S0 * G) * ((S0 * G * S0) * (1 - S0 * G)ᵀ) := by
      nth_rewrite 1 [← joseph]
      noncomm_ring
    rw [e]
    exact Kalman.conj_psd hD _
  · rw [sub_sub_cancel]
    exact hD

/-- C339: a step of the filter from positive semidefinite matrices, singular or not: the covariance stored is positive semidefinite and not above the updated covariance, which is not
above the prior. -/
theorem C339_step (c : Cfg k) (hc : PinvOk c) (s : St k) (y : Option (Vec k)) (Q R : Mat k) (hQ : s.Q = some Q) (hR : s.R = some R) (hP : s.P.PosSemidef) (hQp : Q.PosSemidef)
    (hRp : R.PosSemidef) : ∃ X : Mat k, X = s.P + Q - gain c s.P Q R * (s.P + Q) ∧ (filter c s y).P.PosSemidef ∧ (X - (filter c s y).P).PosSemidef ∧ (s.P + Q - X).PosSemidef ∧
      ∀ a, 0 ≤ (filter c s y).P a a ∧ (filter c s y).P a a ≤ s.P a a + Q a a := by
  have h0 : (s.P + Q).PosSemidef := hP.add hQp
  obtain ⟨g1, g2⟩ := hc (s.P + Q + R) (psd_symm (h0.add hRp))
  obtain ⟨p1, p2, p3, p4⟩ := update_psd (s.P + Q) R (c.pinv (s.P + Q + R)) h0 hRp g1 g2
  have e : (filter c s y).P = (1 - gain c s.P Q R) * ((s.P + Q - gain c s.P Q R * (s.P + Q)) * (1 - gain c s.P Q R).transpose) + gain c s.P Q R * (R * (gain c s.P Q R).transpose) := by
    unfold filter
    rw [hQ, hR]
  rw [e]
  refine ⟨_, rfl, p2, p3, p4, fun a => ⟨p2.diag_nonneg, ?_⟩⟩
  have d1 := p3.diag_nonneg (i := a)
  have d2 := p4.diag_nonneg (i := a)
  rw [Matrix.sub_apply] at d1 d2
  have := Matrix.add_apply s.P Q a a
  unfold gain
  linarith

theorem isCorr_psd {M : Mat k} (h : IsCorr M) : M.PosSemidef := by
  refine .of_dotProduct_mulVec_nonneg ?_ ?_
  · rw [IsHermitian, conjTranspose_eq_transpose_of_trivial]
    ext a b
    exact h.1 b a
  · intro z
    have := h.2.2.2 z
    have e : star z ⬝ᵥ M *ᵥ z = ∑ a, ∑ b, z a * M a b * z b := by
      simp only [dotProduct, mulVec, star_trivial, Finset.mul_sum]
      exact Finset.sum_congr rfl fun a _ => Finset.sum_congr rfl fun b _ => by ring
    rw [e]
    exact this

theorem noise_psd (c : Cfg k) (hq : 0 ≤ c.q) (hr : 0 ≤ c.r) (s : St k) (h : Noise c IsCorr s) :
    (∀ Q, s.Q = some Q → Q.PosSemidef) ∧ ∀ R, s.R = some R → R.PosSemidef := by
  rcases h with ⟨h1, h2⟩ | ⟨h1, h2⟩ | ⟨M, h1, h2, hM⟩
  · rw [h1, h2]
    exact ⟨fun Q e => by injection e with e; rw [← e]; exact PosSemidef.one.smul hq, fun Q e => by injection e with e; rw [← e]; exact PosSemidef.one.smul hr⟩
  · rw [h1, h2]
    exact ⟨fun Q e => (by cases e), fun R e => (by cases e)⟩
  · rw [h1, h2]
    exact ⟨fun Q e => by injection e with e; rw [← e]; exact isCorr_psd hM, fun Q e => by injection e with e; rw [← e]; exact (isCorr_psd hM).smul (by norm_num)⟩

/-- The invariant: noise matrices as in C338, positive semidefinite covariance. -/
def Good (c : Cfg k) (s : St k) : Prop := Noise c IsCorr s ∧ s.P.PosSemidef

theorem filter_good (c : Cfg k) (hc : PinvOk c) (hq : 0 ≤ c.q) (hr : 0 ≤ c.r) (s : St k) (y : Option (Vec k)) (h : Good c s) : (filter c s y).P.PosSemidef := by
  obtain ⟨n1, n2⟩ := noise_psd c hq hr s h.1
  cases hQ : s.Q with
  | none =>
    rw [filter_frozen c s y hQ]
    exact h.2
  | some Q =>
    cases hR : s.R with
    | none =>
      have : filter c s y = s := by
        unfold filter
        rw [hQ, hR]
      rw [this]
      exact h.2
    | some R =>
      obtain ⟨X, _, hp, _⟩ := C339_step c hc s y Q R hQ hR h.2 (n1 Q hQ) (n2 R hR)
      exact hp

theorem loop_good (c : Cfg k) (hc : PinvOk c) (hq : 0 ≤ c.q) (hr : 0 ≤ c.r) (d : Data k) (is : List ℕ) (w w' : Work k) (hw : Good c w.s) (h : loop c d true w is = .ok w') :
    Good c w'.s := by
  induction is generalizing w with
  | nil =>
    simp only [loop] at h
    injection h with h
    rw [← h]
    exact hw
  | cons i is ih =>
    have hn : ∀ w1, step c d true w i = .ok w1 → Noise c IsCorr w1.s := fun w1 hs => loop_noise c d [i] w w1 hw.1 (by simp only [loop]; rw [hs])
    simp only [loop] at h
    cases hs : step c d true w i with
    | error e => rw [hs] at h; cases h
    | ok w1 =>
      rw [hs] at h
      refine ih w1 ⟨hn w1 hs, ?_⟩ h
      have hf := filter_good c hc hq hr w.s (coeffsT c d w.s i) hw
      unfold step at hs
      simp only [if_true] at hs
      split_ifs at hs with hi he
      · injection hs with hs
        rw [← hs]
        exact hf
      · injection hs with hs
        rw [← hs]
        exact hf

/-- C339: whatever calls a new object goes through, its covariance is positive semidefinite. -/
theorem C339_psd (c : Cfg k) (hc : PinvOk c) (hq : 0 ≤ c.q) (hr : 0 ≤ c.r) (ex : Experts E F k) (e : E) (fs : List (F × Bool)) (o' : Obj E k) (rs : List (List (Option (ℕ → ℝ))))
    (h : calls c ex { experts := e, states := fresh c } fs = .ok (o', rs)) : o'.states.P.PosSemidef := by
  have key : ∀ (fs : List (F × Bool)) (o : Obj E k) (rs : List (List (Option (ℕ → ℝ)))), Good c o.states → calls c ex o fs = .ok (o', rs) → Good c o'.states := by
    intro fs
    induction fs with
    | nil =>
      intro o rs ho h
      simp only [calls] at h
      injection h with h
      injection h with h1 h2
      rw [← h1]
      exact ho
    | cons p fs ih =>
      intro o rs ho h
      obtain ⟨f, b⟩ := p
      simp only [calls] at h
      split at h
      · cases h
      · next o1 r hc1 =>
        split at h
        · cases h
        · next o2 rs2 hcs =>
          injection h with h
          injection h with h1 h2
          subst h1
          refine ih o1 rs2 ?_ hcs
          rcases call_states c ex o o1 f b r hc1 with he | ⟨d, w, _, hl, he⟩
          · rw [he]; exact ho
          · rw [he]; exact loop_good c hc hq hr d _ _ w ho hl
  exact (key fs _ rs ⟨Or.inl ⟨rfl, rfl⟩, PosSemidef.one.smul (by norm_num)⟩ h).2

end PyF.FkRun
