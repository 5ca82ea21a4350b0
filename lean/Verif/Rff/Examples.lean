import Verif.Rff.Props
import Verif.Rff.Props2
import Verif.Rff.Props3
import Mathlib.Tactic.NormNum
import Mathlib.Tactic.LinearCombination
import Mathlib.Tactic.FinCases

namespace PyF.Rff
open PyF

/-! C171 -/

/-- Draws that are all zero and a regression that predicts zero. -/
def exE : Env := ⟨fun _ _ _ _ => 0, fun _ _ => 0, fun _ _ _ => [0]⟩

/-- A new regressor with two features. -/
def exO : Obj := ⟨2, none, none, none, 0⟩

/-- A prediction on an unfitted regressor with three columns fails, and a fit with four columns fails for ever after. -/
example : Rff.fit exE (afterAll exE exO [.predict ⟨3, []⟩, .fit ⟨3, []⟩ []]) ⟨4, []⟩ [] = (afterAll exE exO [.predict ⟨3, []⟩, .fit ⟨3, []⟩ []], .error .valueError) :=
  C171_width exE exO rfl rfl (.predict ⟨3, []⟩) [.fit ⟨3, []⟩ []] ⟨4, []⟩ [] (by decide)

/-- Fitted on one row of one column, it predicts. -/
example : ∃ w b, Fixed (afterAll exE exO [.fit ⟨1, [[1]]⟩ [[5]]]) w b ∧
    (Rff.predict exE (afterAll exE exO [.fit ⟨1, [[1]]⟩ [[5]], .score ⟨1, [[2]]⟩]) ⟨1, [[3]]⟩).2 = .ok [[0]] := by
  obtain ⟨w, b, h1, h2⟩ := C171_predict exE exO rfl rfl ⟨1, [[1]]⟩ [[5]] [.score ⟨1, [[2]]⟩] (by intro op hop x y; rw [List.mem_singleton] at hop; subst hop; intro h; cases h) ⟨1, [[3]]⟩ rfl
  exact ⟨w, b, h1 [], h2⟩

/-- A matrix of 3 columns passed to a regressor with `dim_kernel = 2` gets three biases. -/
example : ∃ b, Fixed (Op.after exE ⟨2, some ⟨1, 3, fun _ _ => 1⟩, none, none, 0⟩ (.predict ⟨1, []⟩)) ⟨1, 3, fun _ _ => 1⟩ b ∧ b.length = 3 :=
  C171_supplied exE _ _ rfl rfl _

/-- The first feature of the row (1, 2) with the column (3, 4) and the bias 5. -/
example : (convRow ⟨2, 1, fun i _ => i + 3⟩ [5] 1 [1, 2])[0]? = some (Real.cos (1 * 3 + 2 * 4 + 5)) := by
  have := C171_feature ⟨2, 1, fun i _ => i + 3⟩ [5] rfl [1, 2] rfl 0 (by decide)
  rw [this]
  congr 2
  simp [Fin.sum_univ_two]
  norm_num

/-! C172: least squares with one feature -/

section
variable {X : Type}

/-- The five sums of simple regression. -/
def s0 (P : List (ℝ × ℝ)) : ℝ := P.length
def sx (P : List (ℝ × ℝ)) : ℝ := (P.map (fun p => p.1)).sum
def sy (P : List (ℝ × ℝ)) : ℝ := (P.map (fun p => p.2)).sum
def sxx (P : List (ℝ × ℝ)) : ℝ := (P.map (fun p => p.1 ^ 2)).sum
def sxy (P : List (ℝ × ℝ)) : ℝ := (P.map (fun p => p.1 * p.2)).sum
def syy (P : List (ℝ × ℝ)) : ℝ := (P.map (fun p => p.2 ^ 2)).sum

theorem quad (P : List (ℝ × ℝ)) (a b c : ℝ) : (P.map (fun p => (a * p.1 + b * p.2 + c) ^ 2)).sum =
    a ^ 2 * sxx P + 2 * a * b * sxy P + b ^ 2 * syy P + 2 * a * c * sx P + 2 * b * c * sy P + c ^ 2 * s0 P := by
  unfold sxx sxy syy sx sy s0
  induction P with
  | nil => simp
  | cons p P ih =>
    simp only [List.map_cons, List.sum_cons, List.length_cons, ih]
    push_cast
    ring

theorem quad_nonneg (P : List (ℝ × ℝ)) (a b c : ℝ) :
    0 ≤ a ^ 2 * sxx P + 2 * a * b * sxy P + b ^ 2 * syy P + 2 * a * c * sx P + 2 * b * c * sy P + c ^ 2 * s0 P := by
  rw [← quad]
  apply List.sum_nonneg
  intro z hz
  obtain ⟨p, -, rfl⟩ := List.mem_map.1 hz
  exact sq_nonneg _

/-- Pairs of feature and target. -/
def pairs (φ : X → Fin 1 → ℝ) (rows : List X) (err : List ℝ) : List (ℝ × ℝ) := List.zipWith (fun x e => (φ x 0, e)) rows err

theorem sse_pairs (φ : X → Fin 1 → ℝ) (rows : List X) (err : List ℝ) (w : Fin 1 → ℝ) (c : ℝ) : sse φ rows err w c =
    (w 0) ^ 2 * sxx (pairs φ rows err) - 2 * w 0 * sxy (pairs φ rows err) + syy (pairs φ rows err) + 2 * w 0 * c * sx (pairs φ rows err) - 2 * c * sy (pairs φ rows err) +
      c ^ 2 * s0 (pairs φ rows err) := by
  have h : sse φ rows err w c = ((pairs φ rows err).map (fun p => (-(w 0) * p.1 + 1 * p.2 + -c) ^ 2)).sum := by
    unfold sse pairs
    rw [List.map_zipWith]
    congr 1
    congr 1
    funext x e
    unfold lin
    simp only [Fin.sum_univ_one]
    ring
  rw [h, quad]
  ring

/-- Slope and intercept of least squares with one feature. -/
noncomputable def slope (P : List (ℝ × ℝ)) : ℝ := if s0 P * sxx P - sx P ^ 2 = 0 then 0 else (s0 P * sxy P - sx P * sy P) / (s0 P * sxx P - sx P ^ 2)
noncomputable def icpt (P : List (ℝ × ℝ)) : ℝ := (sy P - slope P * sx P) / s0 P

/-- Least squares with one feature. -/
noncomputable def ols1 (φ : X → Fin 1 → ℝ) : Boost.Learner X ℝ := fun rows err x => lin φ (fun _ => slope (pairs φ rows err)) (icpt (pairs φ rows err)) x

/-- It meets the contract of least squares of least norm. -/
theorem ols1_isOLS (φ : X → Fin 1 → ℝ) : IsOLS φ (ols1 φ) := by
  intro rows err
  refine ⟨fun _ => slope (pairs φ rows err), icpt (pairs φ rows err), fun x => rfl, ?_⟩
  generalize hP : pairs φ rows err = P
  have hs : ∀ w c, sse φ rows err w c = (w 0) ^ 2 * sxx P - 2 * w 0 * sxy P + syy P + 2 * w 0 * c * sx P - 2 * c * sy P + c ^ 2 * s0 P := by
    intro w c
    rw [sse_pairs, hP]
  by_cases hn : P = []
  · subst hn
    have e : ∀ w c, sse φ rows err w c = 0 := by
      intro w c
      rw [hs]
      simp [sxx, sxy, syy, sx, sy, s0]
    refine ⟨fun w' c' => by rw [e, e], fun w' c' _ => ?_⟩
    have : slope [] = 0 := by unfold slope; simp [s0, sx, sxx]
    rw [this]
    simp only [Fin.sum_univ_one]
    have := sq_nonneg (w' 0)
    nlinarith
  · have hn0 : 0 < s0 P := by
      unfold s0
      exact_mod_cast List.length_pos_iff.2 hn
    by_cases hD : s0 P * sxx P - sx P ^ 2 = 0
    · have hC : s0 P * sxy P - sx P * sy P = 0 := by
        by_contra hC
        set C := s0 P * sxy P - sx P * sy P with hCd
        set Dy := s0 P * syy P - sy P ^ 2 with hDy
        have h1 : ∀ t : ℝ, 0 ≤ s0 P * (Dy - 2 * t * C) := by
          intro t
          have := quad_nonneg P (-t * s0 P) (s0 P) (t * sx P - sy P)
          have e : (-t * s0 P) ^ 2 * sxx P + 2 * (-t * s0 P) * s0 P * sxy P + s0 P ^ 2 * syy P + 2 * (-t * s0 P) * (t * sx P - sy P) * sx P +
              2 * s0 P * (t * sx P - sy P) * sy P + (t * sx P - sy P) ^ 2 * s0 P = s0 P * (Dy - 2 * t * C) + s0 P * t ^ 2 * (s0 P * sxx P - sx P ^ 2) := by
            rw [hDy, hCd]
            ring
          rw [e, hD] at this
          linarith
        have h2 := h1 ((Dy + 1) / (2 * C))
        have e : Dy - 2 * ((Dy + 1) / (2 * C)) * C = -1 := by
          field_simp
          ring
        rw [e] at h2
        linarith
      have hsl : slope P = 0 := by unfold slope; rw [if_pos hD]
      have hic : icpt P * s0 P = sy P := by
        unfold icpt
        rw [hsl]
        field_simp
        ring
      refine ⟨fun w' c' => ?_, fun w' c' _ => ?_⟩
      · rw [hs, hs]
        simp only [hsl]
        have key : 0 ≤ s0 P * ((w' 0 ^ 2 * sxx P - 2 * w' 0 * sxy P + syy P + 2 * w' 0 * c' * sx P - 2 * c' * sy P + c' ^ 2 * s0 P) -
            (0 ^ 2 * sxx P - 2 * 0 * sxy P + syy P + 2 * 0 * icpt P * sx P - 2 * icpt P * sy P + icpt P ^ 2 * s0 P)) := by
          have e : s0 P * ((w' 0 ^ 2 * sxx P - 2 * w' 0 * sxy P + syy P + 2 * w' 0 * c' * sx P - 2 * c' * sy P + c' ^ 2 * s0 P) -
            (0 ^ 2 * sxx P - 2 * 0 * sxy P + syy P + 2 * 0 * icpt P * sx P - 2 * icpt P * sy P + icpt P ^ 2 * s0 P)) =
            (s0 P * c' + w' 0 * sx P - sy P) ^ 2 := by
            linear_combination (w' 0 ^ 2) * hD - 2 * w' 0 * hC + (-icpt P * s0 P + sy P) * hic
          rw [e]
          exact sq_nonneg _
        have := nonneg_of_mul_nonneg_right key hn0
        linarith
      · rw [hsl]
        simp only [Fin.sum_univ_one]
        have := sq_nonneg (w' 0)
        nlinarith
    · have hDn : 0 ≤ s0 P * sxx P - sx P ^ 2 := by
        have := quad_nonneg P (s0 P) 0 (-sx P)
        have e : s0 P ^ 2 * sxx P + 2 * s0 P * 0 * sxy P + 0 ^ 2 * syy P + 2 * s0 P * -sx P * sx P + 2 * 0 * -sx P * sy P + (-sx P) ^ 2 * s0 P =
            s0 P * (s0 P * sxx P - sx P ^ 2) := by ring
        rw [e] at this
        exact nonneg_of_mul_nonneg_right this hn0
      have hDp : 0 < s0 P * sxx P - sx P ^ 2 := lt_of_le_of_ne hDn (Ne.symm hD)
      have hsl : slope P * (s0 P * sxx P - sx P ^ 2) = s0 P * sxy P - sx P * sy P := by
        unfold slope
        rw [if_neg hD]
        field_simp
      have hic : icpt P * s0 P = sy P - slope P * sx P := by
        unfold icpt
        field_simp
      have diff : ∀ w' c', s0 P * (sse φ rows err w' c' - sse φ rows err (fun _ => slope P) (icpt P)) =
          (s0 P * (c' - icpt P) + sx P * (w' 0 - slope P)) ^ 2 + (s0 P * sxx P - sx P ^ 2) * (w' 0 - slope P) ^ 2 := by
        intro w' c'
        rw [hs, hs]
        linear_combination 2 * (w' 0 - slope P) * hsl + 2 * (s0 P * (c' - icpt P) + sx P * (w' 0 - slope P)) * hic
      refine ⟨fun w' c' => ?_, fun w' c' hm => ?_⟩
      · have h1 : 0 ≤ s0 P * (sse φ rows err w' c' - sse φ rows err (fun _ => slope P) (icpt P)) := by
          rw [diff]
          have := mul_nonneg hDn (sq_nonneg (w' 0 - slope P))
          have := sq_nonneg (s0 P * (c' - icpt P) + sx P * (w' 0 - slope P))
          linarith
        have := nonneg_of_mul_nonneg_right h1 hn0
        linarith
      · have h1 := hm (fun _ => slope P) (icpt P)
        have h2 := diff w' c'
        have h3 : s0 P * (sse φ rows err w' c' - sse φ rows err (fun _ => slope P) (icpt P)) ≤ 0 := mul_nonpos_of_nonneg_of_nonpos hn0.le (by linarith)
        rw [h2] at h3
        have h4 : (s0 P * sxx P - sx P ^ 2) * (w' 0 - slope P) ^ 2 ≤ 0 := by
          have := sq_nonneg (s0 P * (c' - icpt P) + sx P * (w' 0 - slope P))
          linarith
        have h5 : (w' 0 - slope P) ^ 2 = 0 := by
          by_contra hne
          have := mul_pos hDp (lt_of_le_of_ne (sq_nonneg _) (Ne.symm hne))
          linarith
        have h6 : w' 0 = slope P := sub_eq_zero.1 (pow_eq_zero_iff two_ne_zero |>.1 h5)
        simp only [Fin.sum_univ_one, h6]
        exact le_refl _

end

/-- Least squares on the cosine of one column. -/
noncomputable def exL : Boost.Learner ℝ ℝ := ols1 (fun (z : ℝ) _ => Real.cos z)

/-- Three stages forecast the same as one stage. -/
example (x : ℝ) : Boost.addPredict (Boost.addFit (fun _ z => z) [exL, exL, exL] [0, 1, 2] [3, 4, 7]).1 (Boost.addFit (fun _ z => z) [exL, exL, exL] [0, 1, 2] [3, 4, 7]).2.1 x =
    Boost.addPredict (Boost.addFit (fun _ z => z) [exL] [0, 1, 2] [3, 4, 7]).1 (Boost.addFit (fun _ z => z) [exL] [0, 1, 2] [3, 4, 7]).2.1 x :=
  C172_n_models (fun (z : ℝ) (_ : Fin 1) => Real.cos z) exL [exL, exL] (ols1_isOLS _)
    (by
      intro q hq
      have : q = exL := by simpa using hq
      subst this
      exact ols1_isOLS _)
    (fun _ z => z) [0, 1, 2] [3, 4, 7] (by simp) rfl x

/-! C173: a validation row of 10 changes the training features -/

example : trainColumn [0, 2] [] ≠ trainColumn [0, 2] [10] := by
  intro h
  have := ((C173_leak_iff [0, 2] [] [10] 0 2 (by simp) (by simp) (by norm_num)).1 h).1
  unfold mean at this
  norm_num at this

example : mean (trainColumn [0, 2] [10]) ≠ 0 := by
  intro h
  have := (C173_centred_iff [0, 2] [10] (by simp)).1 h
  unfold mean at this
  norm_num at this

/-! C174: a target normalised by its mean; the same frame unscaled would do -/

def exS : Normalize.Setting ℚ :=
  { norm := some (fun m v => v / m), denorm := some (fun m v => v * m), targetNames := ["l".toList], metaCols := ["l_1".toList], rows := [2, 4] }

def exX : Normalize.Frame := [("mean".toList, [2, 4]), ("l_0".toList, [6, 8])]

example : antiTransform exS ["mean".toList] [[("l_0".toList, "l".toList)]] (fun _ v => v) exX [("l_1".toList, [3, 2])] = .error .keyError :=
  C174_error exS _ _ rfl rfl (by decide) _ _ (Or.inl (by decide)) _ _ _

example : (match FmtNorm.denormalizeBoth exS ["mean".toList] [[("l_0".toList, "l".toList)]] exX [("l_1".toList, [3, 2])] with
    | .ok y => decide (y = [("l_1".toList, [6, 8])])
    | .error _ => false) = true := by decide +kernel

/-! C175: scales 1 and 2 -/

example : ¬ ∀ i j : Fin 2, (![1, 2] : Fin 2 → ℝ) i ^ 2 = (![1, 2] : Fin 2 → ℝ) j ^ 2 := by
  intro h
  have := h 0 1
  norm_num at this

example : ∀ t : Nat, Orth ((fun _ => mix (0 : Fin 2) 1) t) := fun _ => mix_orth 0 1 (by decide)

example : ∃ W, orf 1 (fun _ => (![1, 2] : Fin 2 → ℝ)) (fun _ => 1) 5 = .ok W ∧ W.length = 5 := (C175_shape 1 _ _ 5).2 (by decide)

end PyF.Rff
