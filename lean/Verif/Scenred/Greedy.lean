import Verif.Scenred.Props
import Mathlib.Logic.Relation

namespace PyF.Scenred
open PyF

variable {n : Nat} {V : Type}

/-- Specification of one greedy merge on (survivors, probabilities): among all ordered pairs of different survivors, the pair
`(k, r)` with the smallest distance over the whole horizon times the probability of `k` is chosen, and `k` is merged into `r`. -/
def GreedyMerge (c : Cfg n) (a b : (Fin n → Bool) × (Fin n → ℚ)) : Prop :=
  ∃ k r, a.1 k = true ∧ a.1 r = true ∧ r ≠ k ∧
    (∀ k' r', a.1 k' = true → a.1 r' = true → r' ≠ k' → c.dist (c.T - 1) r k * a.2 k ≤ c.dist (c.T - 1) r' k' * a.2 k') ∧
    (∀ x, b.1 x = true ↔ a.1 x = true ∧ x ≠ k) ∧
    b.2 k = 0 ∧ b.2 r = a.2 k + a.2 r ∧ ∀ x, x ≠ k → x ≠ r → b.2 x = a.2 x

theorem merge_greedy {c : Cfg n} {S0 : Nat → Fin n → V} {i : Nat} {own : Fin n → Fin n} {s : St n V} (g : Good c) (h : Inv c S0 i own s)
    (h2 : 2 ≤ (aliveSet s).card) : GreedyMerge c (s.alive, s.P) ((merge c i s).alive, (merge c i s).P) := by
  obtain ⟨hr, ha, hne⟩ := h.choice g h2
  have hD : ∀ r k, s.alive r = true → s.alive k = true → r ≠ k → maskD s.alive s.D r k = c.dist (c.T - 1) r k := by
    intro r k hr hk hrk
    unfold maskD
    rw [if_neg (by simp [hr, hk]), h.D r k hr hk]
    unfold initD
    rw [if_neg hrk, add_zero]
  refine ⟨idxRem c s, idxAug c s, hr, ha, hne, ?_, ?_, ?_, ?_, ?_⟩
  · intro k' r' (hk' : s.alive k' = true) (hr' : s.alive r' = true) hne'
    have h1 : costs c s (idxRem c s) ≤ costs c s k' := g.argmin (costs c s) k'
    unfold costs at h1
    rw [if_neg (by simp [hr]), if_neg (by simp [hk'])] at h1
    have h3 : maskD s.alive s.D (c.argsort0 (fun r => maskD s.alive s.D r k')) k' ≤ maskD s.alive s.D r' k' := g.argsort0 (fun r => maskD s.alive s.D r k') r'
    rw [hD r' k' hr' hk' hne'] at h3
    have h4 : maskD s.alive s.D (idxAug c s) (idxRem c s) = c.dist (c.T - 1) (idxAug c s) (idxRem c s) := hD _ _ ha hr hne
    have hp := (h.pos_iff k').2 hk'
    have h5 := mul_le_mul_of_nonneg_right h3 (le_of_lt hp)
    rw [← h4]
    exact le_trans h1 h5
  · intro x
    unfold merge
    simp only
    split
    · rename_i hx; simp [hx]
    · rename_i hx; simp [hx]
  · unfold merge; simp
  · unfold merge; simp [hne]
  · intro x h1 h3
    unfold merge
    simp [h1, h3]

theorem loop_greedy {c : Cfg n} {S0 : Nat → Fin n → V} {i : Nat} (g : Good c) (dmax : ℚ) : ∀ (f : Nat) (rel : Option ℚ) (dp : ℚ) (own : Fin n → Fin n) (s : St n V),
    Inv c S0 i own s → Relation.ReflTransGen (GreedyMerge c) (s.alive, s.P) ((loop c i dmax f rel dp s).alive, (loop c i dmax f rel dp s).P) := by
  intro f
  induction f with
  | zero => intro rel dp own s _; exact Relation.ReflTransGen.refl
  | succ f ih =>
    intro rel dp own s h
    simp only [loop]
    split
    · rename_i hg
      have h2 := (goOn_two g h hg).1
      obtain ⟨hm, _⟩ := h.merge g h2
      exact Relation.ReflTransGen.head (merge_greedy g h h2) (ih _ _ _ _ hm)
    · exact Relation.ReflTransGen.refl

/-- C95: going from step `i + 1` to step `i` the survivors and probabilities change by greedy merges only, each of them choosing
the cheapest pair in terms of the distance over the whole horizon (not only the steps up to `i`). -/
theorem C95_greedy (c : Cfg n) (S0 : Nat → Fin n → V) (g : Good c) (i : Nat) (hi : i < c.T) :
    Relation.ReflTransGen (GreedyMerge c) ((row c S0 (i + 1)).alive, (row c S0 (i + 1)).P) ((row c S0 i).alive, (row c S0 i).P) := by
  obtain ⟨own, hI⟩ := row_inv c S0 g i hi
  have h := loop_greedy g (deltaMax c i (row c S0 (i + 1))) n (some 0) 0 own _ hI
  have hP : (row c S0 i).P = (loop c i (deltaMax c i (row c S0 (i + 1))) n (some 0) 0 (row c S0 (i + 1))).P := by
    rw [row_step c S0 i hi]
    unfold stepAt
    simp only
    split <;> rfl
  rw [hP, row_step c S0 i hi, stepAt_alive]
  exact h

/-- C95 (start): before the last step all scenarios are present with equal probability. -/
theorem C95_start (c : Cfg n) (S0 : Nat → Fin n → V) : (row c S0 c.T).alive = (fun _ => true) ∧ (row c S0 c.T).P = fun _ => 1 / (n : ℚ) := by
  unfold row
  rw [Nat.sub_self]
  exact ⟨rfl, rfl⟩

end PyF.Scenred
