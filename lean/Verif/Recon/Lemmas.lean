import Verif.Recon.Model
import Mathlib.Analysis.Matrix.PosDef
import Mathlib.Data.List.Nodup
import Mathlib.Tactic.Linarith
import Mathlib.Tactic.Ring

namespace PyF.Recon
open PyF Matrix

variable {N T : Type} [DecidableEq N] [DecidableEq T]

/-- Specification: the bottom series below a node. -/
inductive Below (h : Hier N) : N → N → Prop
  | child {k c : N} {l : List N} (hk : h.lookup k = some l) (hc : c ∈ l) (hb : c ∉ keys h) : Below h k c
  | deep {k c b : N} {l : List N} (hk : h.lookup k = some l) (hc : c ∈ l) (ha : c ∈ keys h) (hb : Below h c b) : Below h k b

omit [DecidableEq N] in
theorem gather_mem {isKey : N → Bool} {g : N → Except PyErr (List N)} {l r : List N} (h : gather isKey g l = .ok r) (b : N) :
    b ∈ r ↔ (b ∈ l ∧ isKey b = false) ∨ ∃ c ∈ l, isKey c = true ∧ ∃ r', g c = .ok r' ∧ b ∈ r' := by
  induction l generalizing r with
  | nil => cases h; simp
  | cons i l ih =>
    unfold gather at h
    cases hk : isKey i with
    | true =>
      rw [hk, if_pos rfl] at h
      cases hg : g i with
      | error e => rw [hg] at h; cases h
      | ok l1 =>
        rw [hg] at h
        simp only at h
        cases hr : gather isKey g l with
        | error e => rw [hr] at h; cases h
        | ok r1 =>
          rw [hr] at h
          cases h
          rw [List.mem_append, ih hr]
          constructor
          · rintro (h1 | ⟨h1, h2⟩ | ⟨c, h1, h2⟩)
            · exact Or.inr ⟨i, by simp, hk, l1, hg, h1⟩
            · exact Or.inl ⟨by simp [h1], h2⟩
            · exact Or.inr ⟨c, by simp [h1], h2⟩
          · rintro (⟨h1, h2⟩ | ⟨c, h1, h2, r', h3, h4⟩)
            · rcases List.mem_cons.1 h1 with h1 | h1
              · rw [h1, hk] at h2; cases h2
              · exact Or.inr (Or.inl ⟨h1, h2⟩)
            · rcases List.mem_cons.1 h1 with h1 | h1
              · rw [h1, hg] at h3; cases h3; exact Or.inl h4
              · exact Or.inr (Or.inr ⟨c, h1, h2, r', h3, h4⟩)
    | false =>
      rw [hk] at h
      simp only [Bool.false_eq_true, if_false] at h
      cases hr : gather isKey g l with
      | error e => rw [hr] at h; cases h
      | ok r1 =>
        rw [hr] at h
        cases h
        rw [List.mem_append, ih hr]
        constructor
        · rintro (h1 | ⟨h1, h2⟩ | ⟨c, h1, h2⟩)
          · rw [List.mem_singleton] at h1; subst h1; exact Or.inl ⟨by simp, hk⟩
          · exact Or.inl ⟨by simp [h1], h2⟩
          · exact Or.inr ⟨c, by simp [h1], h2⟩
        · rintro (⟨h1, h2⟩ | ⟨c, h1, h2, r', h3, h4⟩)
          · rcases List.mem_cons.1 h1 with h1 | h1
            · exact Or.inl (by simp [h1])
            · exact Or.inr (Or.inl ⟨h1, h2⟩)
          · rcases List.mem_cons.1 h1 with h1 | h1
            · rw [h1, hk] at h2; cases h2
            · exact Or.inr (Or.inr ⟨c, h1, h2, r', h3, h4⟩)

omit [DecidableEq N] in
theorem gather_ok_sub {isKey : N → Bool} {g : N → Except PyErr (List N)} {l r : List N} (h : gather isKey g l = .ok r) : ∀ c ∈ l, isKey c = true → ∃ r', g c = .ok r' := by
  induction l generalizing r with
  | nil => intro c hc; simp at hc
  | cons i l ih =>
    unfold gather at h
    cases hd : (if isKey i then g i else .ok [i]) with
    | error e => rw [hd] at h; cases h
    | ok l1 =>
      rw [hd] at h
      simp only at h
      cases hr : gather isKey g l with
      | error e => rw [hr] at h; cases h
      | ok r1 =>
        intro c hc hk
        rcases List.mem_cons.1 hc with hc | hc
        · rw [hc] at hk ⊢
          rw [hk, if_pos rfl] at hd
          exact ⟨l1, hd⟩
        · exact ih hr c hc hk

omit [DecidableEq N] in
theorem gather_ok_of {isKey : N → Bool} {g : N → Except PyErr (List N)} {l : List N} (h : ∀ c ∈ l, isKey c = true → ∃ r', g c = .ok r') : ∃ r, gather isKey g l = .ok r := by
  induction l with
  | nil => exact ⟨[], rfl⟩
  | cons i l ih =>
    obtain ⟨r, hr⟩ := ih (fun c hc => h c (by simp [hc]))
    unfold gather
    cases hk : isKey i with
    | true =>
      obtain ⟨r', hr'⟩ := h i (by simp) hk
      rw [if_pos rfl, hr', hr]
      exact ⟨_, rfl⟩
    | false =>
      rw [hr]
      exact ⟨_, rfl⟩

/-- What unrolling returns contains exactly the bottom series below the node. -/
theorem unrollSub_mem (h : Hier N) {f : Nat} {k : N} {r : List N} (hr : unrollSub h f k = .ok r) (b : N) : b ∈ r ↔ Below h k b := by
  induction f generalizing k r b with
  | zero => cases hr
  | succ f ih =>
    unfold unrollSub at hr
    cases hl : h.lookup k with
    | none => rw [hl] at hr; cases hr
    | some l =>
      rw [hl] at hr
      cases l with
      | nil => cases hr
      | cons c0 cs =>
        simp only at hr
        rw [gather_mem hr b]
        constructor
        · rintro (⟨h1, h2⟩ | ⟨c, h1, h2, r', h3, h4⟩)
          · exact Below.child hl h1 (of_decide_eq_false h2)
          · exact Below.deep hl h1 (of_decide_eq_true h2) ((ih h3 b).1 h4)
        · intro hB
          cases hB with
          | child hk hc hb =>
            rw [hl] at hk
            cases hk
            exact Or.inl ⟨hc, decide_eq_false hb⟩
          | deep hk hc ha hb =>
            rw [hl] at hk
            cases hk
            obtain ⟨r', hr'⟩ := gather_ok_sub hr _ hc (decide_eq_true ha)
            exact Or.inr ⟨_, hc, decide_eq_true ha, r', hr', (ih hr' b).2 hb⟩

theorem lookup_of_mem_keys {h : Hier N} {k : N} (hk : k ∈ keys h) : ∃ l, h.lookup k = some l := by
  induction h with
  | nil => simp [keys] at hk
  | cons x h ih =>
    obtain ⟨k', l'⟩ := x
    rw [List.lookup_cons]
    by_cases e : k = k'
    · subst e; exact ⟨l', by simp⟩
    · rw [show (k == k') = false by simpa using e]
      simp only [keys, List.map_cons, List.mem_cons] at hk
      exact ih (hk.resolve_left e)

theorem mapM_get {A B : Type} {g : A → Except PyErr B} {l : List A} {r : List B} (h : l.mapM g = .ok r) : r.length = l.length ∧ ∀ (i : Nat) (a : A), l[i]? = some a → ∃ b, r[i]? = some b ∧ g a = .ok b := by
  induction l generalizing r with
  | nil => cases h; simp
  | cons a l ih =>
    rw [List.mapM_cons] at h
    cases hg : g a with
    | error e => rw [hg] at h; cases h
    | ok b =>
      rw [hg] at h
      cases hr : l.mapM g with
      | error e => rw [hr] at h; cases h
      | ok r1 =>
        rw [hr] at h
        cases h
        obtain ⟨e1, e2⟩ := ih hr
        refine ⟨by simp [e1], ?_⟩
        intro i a' hi
        cases i with
        | zero => simp only [List.getElem?_cons_zero, Option.some.injEq] at hi; subst hi; exact ⟨b, by simp, hg⟩
        | succ i => simp only [List.getElem?_cons_succ] at hi ⊢; exact e2 i a' hi

theorem mapM_ok_of {A B : Type} {g : A → Except PyErr B} {l : List A} (h : ∀ a ∈ l, ∃ b, g a = .ok b) : ∃ r, l.mapM g = .ok r := by
  induction l with
  | nil => exact ⟨[], rfl⟩
  | cons a l ih =>
    obtain ⟨b, hb⟩ := h a (by simp)
    obtain ⟨r, hr⟩ := ih (fun c hc => h c (by simp [hc]))
    rw [List.mapM_cons, hb, hr]
    exact ⟨_, rfl⟩

/-! ### Matrices -/

section
variable {m n : Type} [Fintype m] [Fintype n] [DecidableEq n]


/-- If the normal matrix is invertible, the least-squares matrix is a left inverse of the summation matrix. -/
theorem left_inv (S : Matrix m n ℝ) (W : Matrix m m ℝ) (hd : (Sᵀ * W * S).det ≠ 0) : ((Sᵀ * W * S)⁻¹ * (Sᵀ * W)) * S = 1 := by
  rw [Matrix.mul_assoc, Matrix.nonsing_inv_mul]
  exact isUnit_iff_ne_zero.2 hd


/-- Normal equations. -/
theorem normal_eq (S : Matrix m n ℝ) (W : Matrix m m ℝ) (hd : (Sᵀ * W * S).det ≠ 0) (y : m → ℝ) :
    (Sᵀ * W) *ᵥ (y - (S * ((Sᵀ * W * S)⁻¹ * (Sᵀ * W))) *ᵥ y) = 0 := by
  rw [Matrix.mulVec_sub, Matrix.mulVec_mulVec, ← Matrix.mul_assoc, ← Matrix.mul_assoc, Matrix.mul_nonsing_inv _ (isUnit_iff_ne_zero.2 hd), Matrix.one_mul, sub_self]

theorem det_ne_zero_of_posDef (S : Matrix m n ℝ) (W : Matrix m m ℝ) (hW : W.PosDef) (hS : Function.Injective S.mulVec) : (Sᵀ * W * S).det ≠ 0 := by
  have : (Sᵀ * W * S).PosDef := by
    have h := hW.conjTranspose_mul_mul_same (B := S) hS
    rwa [Matrix.conjTranspose_eq_transpose_of_trivial] at h
  exact this.det_pos.ne'

theorem optimal (S : Matrix m n ℝ) (W : Matrix m m ℝ) (hW : W.PosDef) (hd : (Sᵀ * W * S).det ≠ 0) (y : m → ℝ) (b : n → ℝ) :
    (y - (S * ((Sᵀ * W * S)⁻¹ * (Sᵀ * W))) *ᵥ y) ⬝ᵥ W *ᵥ (y - (S * ((Sᵀ * W * S)⁻¹ * (Sᵀ * W))) *ᵥ y) ≤ (y - S *ᵥ b) ⬝ᵥ W *ᵥ (y - S *ᵥ b) := by
  set r := y - (S * ((Sᵀ * W * S)⁻¹ * (Sᵀ * W))) *ᵥ y with hr
  obtain ⟨c, hc⟩ : ∃ c : n → ℝ, y - S *ᵥ b = r + S *ᵥ c := by
    refine ⟨((Sᵀ * W * S)⁻¹ * (Sᵀ * W)) *ᵥ y - b, ?_⟩
    rw [hr, Matrix.mulVec_sub, Matrix.mulVec_mulVec]
    abel
  have hne : (Sᵀ * W) *ᵥ r = 0 := normal_eq S W hd y
  have hWt : Wᵀ = W := by
    have := hW.isHermitian.eq
    rwa [Matrix.conjTranspose_eq_transpose_of_trivial] at this
  have h1 : (S *ᵥ c) ⬝ᵥ W *ᵥ r = 0 := by
    rw [dotProduct_comm, Matrix.dotProduct_mulVec, ← Matrix.mulVec_transpose, Matrix.mulVec_mulVec, hne, zero_dotProduct]
  have h2 : r ⬝ᵥ W *ᵥ (S *ᵥ c) = 0 := by
    rw [Matrix.dotProduct_mulVec, ← Matrix.mulVec_transpose, hWt, dotProduct_comm]
    exact h1
  rw [hc, Matrix.mulVec_add, dotProduct_add, add_dotProduct, add_dotProduct, h1, h2]
  have h3 : 0 ≤ (S *ᵥ c) ⬝ᵥ W *ᵥ (S *ᵥ c) := by
    have := hW.posSemidef.dotProduct_mulVec_nonneg (S *ᵥ c)
    simpa using this
  linarith
end

end PyF.Recon
