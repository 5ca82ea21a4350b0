import Verif.Rff.Model
import Verif.Utils.Lemmas
import Mathlib.Tactic.Ring
import Mathlib.Tactic.Linarith
import Mathlib.Algebra.BigOperators.Fin
import Mathlib.Data.Matrix.Mul

namespace PyF.Rff
open PyF

/-! ### C175: orthogonal random features -/

section
variable {n : Nat}

/-- Scalar product. -/
def dot (u v : Fin n → ℝ) : ℝ := ∑ a, u a * v a

/-- An orthogonal matrix. -/
def Orth (Q : Matrix (Fin n) (Fin n) ℝ) : Prop := Q.transpose * Q = 1

theorem columns_length (V : Matrix (Fin n) (Fin n) ℝ) : (columns V).length = n := by
  unfold columns
  rw [List.length_map, List.length_finRange]

theorem flatMap_length (f : Nat → List (Fin n → ℝ)) (h : ∀ k, (f k).length = n) (m : Nat) : ((List.range m).flatMap f).length = m * n := by
  induction m with
  | zero => simp
  | succ m ih => rw [List.range_succ, List.flatMap_append, List.length_append, ih, List.flatMap_cons, List.flatMap_nil, List.append_nil, h]; ring

theorem flatMap_get (f : Nat → List (Fin n → ℝ)) (h : ∀ k, (f k).length = n) (m : Nat) (c : Nat) (hc : c < m * n) :
    ((List.range m).flatMap f)[c]? = (f (c / n))[c % n]? := by
  induction m with
  | zero => simp at hc
  | succ m ih =>
    rw [List.range_succ, List.flatMap_append, List.flatMap_cons, List.flatMap_nil, List.append_nil]
    by_cases hlt : c < m * n
    · rw [List.getElem?_append_left (by rw [flatMap_length f h]; exact hlt), ih hlt]
    · have hn : 0 < n := by
        rcases Nat.eq_zero_or_pos n with h0 | h0
        · subst h0; simp at hc
        · exact h0
      rw [List.getElem?_append_right (by rw [flatMap_length f h]; omega), flatMap_length f h]
      have h1 : c / n = m := by
        apply Nat.div_eq_of_lt_le
        · omega
        · exact hc
      have h2 : c % n = c - m * n := by
        have := Nat.div_add_mod c n
        rw [h1, Nat.mul_comm] at this
        omega
      rw [h1, h2]

/-- C175 (shape): the matrix has `dim_out` columns of `dim_in` entries; without features it is a ZeroDivisionError. -/
theorem C175_shape (std : ℝ) (s : Nat → Fin n → ℝ) (Q : Nat → Matrix (Fin n) (Fin n) ℝ) (m : Nat) :
    (n = 0 → orf std s Q m = .error .zeroDivisionError) ∧ (0 < n → ∃ W, orf std s Q m = .ok W ∧ W.length = m) := by
  constructor
  · intro h
    unfold orf
    rw [if_pos h]
  · intro h
    unfold orf
    rw [if_neg (by omega)]
    refine ⟨_, rfl, ?_⟩
    rw [List.length_take, flatMap_length _ (fun k => columns_length _)]
    apply min_eq_left
    have := Nat.lt_div_mul_add (a := m) h
    rw [Nat.add_mul, Nat.one_mul]
    omega

/-- C175 (entries): column `c` is column `c % dim_in` of the orthogonal matrix of round `c // dim_in`, entry `i` scaled by draw `i` of that round. -/
theorem C175_entry (std : ℝ) (s : Nat → Fin n → ℝ) (Q : Nat → Matrix (Fin n) (Fin n) ℝ) (m : Nat) (W : List (Fin n → ℝ)) (hW : orf std s Q m = .ok W) (c : Nat) (hc : c < m)
    (hm : c % n < n) : W[c]? = some (fun i => std * (s (c / n) i * Q (c / n) i ⟨c % n, hm⟩)) := by
  have hn : 0 < n := by omega
  unfold orf at hW
  rw [if_neg (by omega)] at hW
  cases hW
  rw [List.getElem?_take_of_lt hc, flatMap_get _ (fun k => columns_length _)]
  · unfold columns
    rw [List.getElem?_map, List.getElem?_eq_getElem (by rw [List.length_finRange]; exact hm), List.getElem_finRange]
    simp only [Option.map_some, Option.some.injEq]
    funext i
    simp only [orfBlock, Matrix.smul_apply, Matrix.diagonal_mul, smul_eq_mul]
    rfl
  · have := Nat.lt_div_mul_add (a := m) hn
    rw [Nat.add_mul, Nat.one_mul]
    omega

/-- C175 (rows): within one round, the rows of the matrix are orthogonal. -/
theorem C175_rows (std : ℝ) (s : Fin n → ℝ) (Q : Matrix (Fin n) (Fin n) ℝ) (hQ : Q * Q.transpose = 1) (i j : Fin n) (hij : i ≠ j) :
    dot (fun a => orfBlock std s Q i a) (fun a => orfBlock std s Q j a) = 0 := by
  have h := congrFun (congrFun hQ i) j
  rw [Matrix.mul_apply, Matrix.one_apply_ne hij] at h
  simp only [Matrix.transpose_apply] at h
  unfold dot orfBlock
  simp only [Matrix.smul_apply, Matrix.diagonal_mul, smul_eq_mul]
  have : ∀ a, std * (s i * Q i a) * (std * (s j * Q j a)) = std ^ 2 * s i * s j * (Q i a * Q j a) := by intro a; ring
  simp only [this]
  rw [← Finset.mul_sum, h, mul_zero]

/-- The reflection that mixes two axes. -/
noncomputable def mixVec (i j : Fin n) : Fin n → ℝ := fun a => if a = i then 3 / 5 else if a = j then 4 / 5 else 0

noncomputable def mix (i j : Fin n) : Matrix (Fin n) (Fin n) ℝ := 1 - (2 : ℝ) • Matrix.vecMulVec (mixVec i j) (mixVec i j)

theorem mix_transpose (i j : Fin n) : (mix i j).transpose = mix i j := by
  unfold mix
  rw [Matrix.transpose_sub, Matrix.transpose_one, Matrix.transpose_smul, Matrix.transpose_vecMulVec]

theorem sum_two (i j : Fin n) (hij : i ≠ j) (f : Fin n → ℝ) (h : ∀ a, a ≠ i → a ≠ j → f a = 0) : ∑ a, f a = f i + f j :=
  Finset.sum_eq_add i j hij (fun c _ hc => h c hc.1 hc.2) (fun h => absurd (Finset.mem_univ _) h) (fun h => absurd (Finset.mem_univ _) h)

theorem mix_orth (i j : Fin n) (hij : i ≠ j) : Orth (mix i j) := by
  have hu : dotProduct (mixVec i j) (mixVec i j) = 1 := by
    unfold dotProduct
    rw [sum_two i j hij]
    · simp only [mixVec, if_true, if_neg hij.symm]
      norm_num
    · intro a h1 h2
      simp [mixVec, h1, h2]
  unfold Orth
  rw [mix_transpose]
  unfold mix
  rw [Matrix.sub_mul, Matrix.mul_sub, Matrix.one_mul, Matrix.mul_sub, Matrix.one_mul, Matrix.mul_one, Matrix.smul_mul, Matrix.mul_smul, Matrix.vecMulVec_mul_vecMulVec, hu]
  rw [one_smul]
  ext a b
  simp only [Matrix.sub_apply, Matrix.smul_apply, smul_eq_mul]
  ring

theorem mix_dot (d : Fin n → ℝ) (i j : Fin n) (hij : i ≠ j) : ∑ a, d a * (mix i j a i * mix i j a j) = 168 / 625 * (d j - d i) := by
  rw [sum_two i j hij]
  · simp only [mix, Matrix.sub_apply, Matrix.smul_apply, smul_eq_mul, Matrix.vecMulVec_apply, mixVec, if_true, if_neg hij.symm, Matrix.one_apply_eq, Matrix.one_apply_ne hij, Matrix.one_apply_ne hij.symm]
    ring
  · intro a h1 h2
    simp [mix, Matrix.vecMulVec_apply, mixVec, h1, h2]

/-- C175 (frequencies, defect): the columns of the matrix, that is the frequencies, are orthogonal within a round for every orthogonal draw iff all the scales of the round have the
same square: the random scales are put on the wrong side. -/
theorem C175_orthogonal_iff (std : ℝ) (hstd : std ≠ 0) (s : Nat → Fin n → ℝ) (m k : Nat) (hk : (k + 1) * n ≤ m) :
    (∀ Q : Nat → Matrix (Fin n) (Fin n) ℝ, (∀ t, Orth (Q t)) → ∀ W, orf std s Q m = .ok W → ∀ (c c' : Nat) (u u' : Fin n → ℝ), c ≠ c' → c / n = k → c' / n = k →
      W[c]? = some u → W[c']? = some u' → dot u u' = 0) ↔ ∀ i j, s k i ^ 2 = s k j ^ 2 := by
  constructor
  · intro H i j
    by_cases hij : i = j
    · rw [hij]
    have hn : 0 < n := Fin.pos i
    obtain ⟨W, hW, hlen⟩ := (C175_shape std s (fun _ => mix i j) m).2 hn
    have hrange : ∀ a : Fin n, k * n + a < m := by
      intro a
      have := a.2
      rw [Nat.add_mul, Nat.one_mul] at hk
      omega
    have hdiv : ∀ a : Fin n, (k * n + a) / n = k := by
      intro a
      rw [Nat.mul_comm, Nat.mul_add_div hn, Nat.div_eq_of_lt a.2, Nat.add_zero]
    have hmod : ∀ a : Fin n, (k * n + a) % n = a := by
      intro a
      rw [Nat.mul_comm, Nat.mul_add_mod, Nat.mod_eq_of_lt a.2]
    have hent : ∀ a : Fin n, W[k * n + a.1]? = some (fun r => std * (s k r * mix i j r a)) := by
      intro a
      have := C175_entry std s (fun _ => mix i j) m W hW (k * n + a) (hrange a) (Nat.mod_lt _ hn)
      rw [this]
      congr 1
      funext r
      rw [hdiv a]
      congr 3
      exact Fin.ext (hmod a)
    have h0 := H (fun _ => mix i j) (fun _ => mix_orth i j hij) W hW (k * n + i) (k * n + j) _ _
      (by intro e; exact hij (Fin.ext (by omega))) (hdiv i) (hdiv j) (hent i) (hent j)
    unfold dot at h0
    have : ∀ a, std * (s k a * mix i j a i) * (std * (s k a * mix i j a j)) = std ^ 2 * (s k a ^ 2 * (mix i j a i * mix i j a j)) := by intro a; ring
    simp only [this] at h0
    rw [← Finset.mul_sum, mix_dot (fun a => s k a ^ 2) i j hij] at h0
    have hs2 : std ^ 2 ≠ 0 := pow_ne_zero 2 hstd
    have := (mul_eq_zero.1 h0).resolve_left hs2
    linarith
  · intro heq Q hQ W hW c c' u u' hcc hc hc' hu hu'
    have hn : 0 < n := by
      rcases Nat.eq_zero_or_pos n with h0 | h0
      · rw [(C175_shape std s Q m).1 h0] at hW
        cases hW
      · exact h0
    obtain ⟨W', hW', hlen⟩ := (C175_shape std s Q m).2 hn
    rw [hW] at hW'
    cases hW'
    have hcm : c < m := by rw [← hlen]; exact (List.getElem?_eq_some_iff.1 hu).1
    have hcm' : c' < m := by rw [← hlen]; exact (List.getElem?_eq_some_iff.1 hu').1
    rw [C175_entry std s Q m W hW c hcm (Nat.mod_lt _ hn)] at hu
    rw [C175_entry std s Q m W hW c' hcm' (Nat.mod_lt _ hn)] at hu'
    cases hu
    cases hu'
    rw [hc, hc']
    have hne : (⟨c % n, Nat.mod_lt _ hn⟩ : Fin n) ≠ ⟨c' % n, Nat.mod_lt _ hn⟩ := by
      intro e
      have e' : c % n = c' % n := congrArg Fin.val e
      apply hcc
      rw [← Nat.div_add_mod c n, ← Nat.div_add_mod c' n, hc, hc', e']
    have h := congrFun (congrFun (hQ k) ⟨c % n, Nat.mod_lt _ hn⟩) ⟨c' % n, Nat.mod_lt _ hn⟩
    rw [Matrix.mul_apply, Matrix.one_apply_ne hne] at h
    simp only [Matrix.transpose_apply] at h
    unfold dot
    have : ∀ a, std * (s k a * Q k a ⟨c % n, Nat.mod_lt _ hn⟩) * (std * (s k a * Q k a ⟨c' % n, Nat.mod_lt _ hn⟩)) =
        std ^ 2 * s k ⟨c % n, Nat.mod_lt _ hn⟩ ^ 2 * (Q k a ⟨c % n, Nat.mod_lt _ hn⟩ * Q k a ⟨c' % n, Nat.mod_lt _ hn⟩) := by
      intro a
      rw [heq ⟨c % n, Nat.mod_lt _ hn⟩ a]
      ring
    simp only [this]
    rw [← Finset.mul_sum, h, mul_zero]

/-- C175 (names): only 'rff' and 'orf' give a generator; 'qrf', which the message offers, is refused like any other name. -/
theorem C175_names (t : String) : ((∃ k, generator t = .ok k) ↔ t = "rff" ∨ t = "orf") ∧ (∀ e, generator t = .error e → e = .runtimeError) ∧ generator "qrf" = .error .runtimeError ∧
    generator "rff" = .ok .rff ∧ generator "orf" = .ok .orf := by
  refine ⟨?_, ?_, rfl, rfl, rfl⟩
  · unfold generator
    by_cases h1 : t = "rff" <;> by_cases h2 : t = "orf" <;> simp [h1, h2]
  · intro e
    unfold generator
    by_cases h1 : t = "rff" <;> by_cases h2 : t = "orf" <;> simp [h1, h2]; all_goals (intro h; exact h.symm)

end

end PyF.Rff
