import Verif.Scenred.Greedy
import Mathlib.Tactic.Linarith
import Mathlib.Tactic.Ring
import Mathlib.Tactic.FieldSimp
import Mathlib.Algebra.Order.BigOperators.Group.Finset

/-! C305: expectations over a scenario tree, and what the tolerance limits. -/

namespace PyF.Scenred
open PyF

variable {n : Nat} {V : Type}

/-- C305 (values): the expectation of any function of the value at step `i` over the tree is the mean over the scenarios, each replaced by the scenario it was merged with; those of the tree stand for themselves. -/
theorem C305_expectation (c : Cfg n) (S0 : Nat → Fin n → V) (g : Good c) (i : Nat) (hi : i < c.T) :
    ∃ own : Fin n → Fin n, (∀ k, (row c S0 i).alive (own k) = true) ∧ (∀ a, (row c S0 i).alive a = true → own a = a) ∧
      ∀ f : V → ℚ, ∑ a, (row c S0 i).P a * f (finalS c S0 i a) = (∑ k, f (S0 i (own k))) / n := by
  obtain ⟨own, h⟩ := C48_reduction_is_a_tree c S0 g
  obtain ⟨h1, h2, h3, -, -, h6⟩ := h i hi
  refine ⟨own i, h1, h2, fun f => ?_⟩
  have e : ∀ a, (row c S0 i).P a * f (finalS c S0 i a) = (∑ k, if own i k = a then f (S0 i (own i k)) else 0) / n := by
    intro a
    rw [h3 a, h6 a, ← Finset.sum_filter]
    rw [Finset.sum_congr rfl (g := fun _ => f (S0 i a)) (fun k hk => by rw [(Finset.mem_filter.1 hk).2]), Finset.sum_const, nsmul_eq_mul]
    by_cases hz : (Finset.univ.filter (fun k => own i k = a)).card = 0
    · rw [hz]; simp
    · obtain ⟨k, hk⟩ := Finset.card_pos.1 (Nat.pos_of_ne_zero hz)
      have ha : own i a = a := by
        have := (Finset.mem_filter.1 hk).2
        exact h2 a (this ▸ h1 k)
      rw [ha]
      ring
  rw [Finset.sum_congr rfl (fun a _ => e a), ← Finset.sum_div, Finset.sum_comm]
  congr 1
  refine Finset.sum_congr rfl fun k _ => ?_
  rw [Finset.sum_ite_eq, if_pos (Finset.mem_univ _)]

/-- C305 (error): the expectation over the tree is off by at most the share of the scenarios that were merged, times the range of the function. -/
theorem C305_error (c : Cfg n) (S0 : Nat → Fin n → V) (g : Good c) (i : Nat) (hi : i < c.T) (f : V → ℚ) (M : ℚ) (hM : ∀ k l, |f (S0 i k) - f (S0 i l)| ≤ M) :
    |∑ a, (row c S0 i).P a * f (finalS c S0 i a) - (∑ k, f (S0 i k)) / n| ≤ ((n : ℚ) - count c S0 i) / n * M := by
  obtain ⟨own, h1, h2, h3⟩ := C305_expectation c S0 g i hi
  rcases Nat.eq_zero_or_pos n with rfl | hn
  · simp
  have hn' : (0 : ℚ) < n := by exact_mod_cast hn
  rw [h3, ← sub_div, ← Finset.sum_sub_distrib, abs_div, abs_of_pos hn', div_mul_eq_mul_div]
  refine div_le_div_of_nonneg_right ((Finset.abs_sum_le_sum_abs _ _).trans ?_) hn'.le
  have hb : ∀ k ∈ Finset.univ, |f (S0 i (own k)) - f (S0 i k)| ≤ if (row c S0 i).alive k = true then 0 else M := by
    intro k _
    split_ifs with hk
    · rw [h2 k hk, sub_self, abs_zero]
    · exact hM _ _
  refine (Finset.sum_le_sum hb).trans (le_of_eq ?_)
  rw [Finset.sum_ite, Finset.sum_const_zero, zero_add, Finset.sum_const, nsmul_eq_mul]
  congr 1
  have hc : (Finset.univ.filter (fun k => (row c S0 i).alive k = true)).card + (Finset.univ.filter (fun k => ¬ (row c S0 i).alive k = true)).card = n := by
    rw [Finset.card_filter_add_card_filter_not, Finset.card_univ, Fintype.card_fin]
  have hc' : ((Finset.univ.filter (fun k => (row c S0 i).alive k = true)).card : ℚ) + (Finset.univ.filter (fun k => ¬ (row c S0 i).alive k = true)).card = n := by exact_mod_cast hc
  have : count c S0 i = (Finset.univ.filter (fun k => (row c S0 i).alive k = true)).card := rfl
  rw [this]
  linarith

/-! ### Costs of merges -/

/-- One scenario `k` is merged with the scenario `r`, at the cost of its probability times the distance over the whole horizon. -/
def MergeAt (c : Cfg n) (a b : (Fin n → Bool) × (Fin n → ℚ)) (v : ℚ) : Prop :=
  ∃ k r, a.1 k = true ∧ a.1 r = true ∧ r ≠ k ∧ v = a.2 k * c.dist (c.T - 1) r k ∧
    (∀ k' r', a.1 k' = true → a.1 r' = true → r' ≠ k' → v ≤ a.2 k' * c.dist (c.T - 1) r' k') ∧
    (∀ x, b.1 x = true ↔ a.1 x = true ∧ x ≠ k) ∧ b.2 k = 0 ∧ b.2 r = a.2 k + a.2 r ∧ ∀ x, x ≠ k → x ≠ r → b.2 x = a.2 x

/-- A sequence of cheapest merges of total cost `w`. -/
inductive Merges (c : Cfg n) : (Fin n → Bool) × (Fin n → ℚ) → (Fin n → Bool) × (Fin n → ℚ) → ℚ → Prop
  | none (a) : Merges c a a 0
  | more {a b d v w} : MergeAt c a b v → Merges c b d w → Merges c a d (v + w)

/-- C305 (cost): a sequence of merges changes the expectation of any function that varies at most as the distance by at most its cost. -/
theorem C305_cost (c : Cfg n) (f : Fin n → ℚ) (hf : ∀ r k, |f r - f k| ≤ c.dist (c.T - 1) r k) (a b : (Fin n → Bool) × (Fin n → ℚ)) (w : ℚ) (h : Merges c a b w) (ha : ∀ k, 0 ≤ a.2 k) :
    |∑ k, b.2 k * f k - ∑ k, a.2 k * f k| ≤ w := by
  induction h with
  | none a => simp
  | @more a b d v w hm _ ih =>
    obtain ⟨k, r, -, -, hne, hv, -, -, hk, hr, hx⟩ := hm
    have hb : ∀ x, 0 ≤ b.2 x := by
      intro x
      by_cases h1 : x = k
      · rw [h1, hk]
      · by_cases h2 : x = r
        · rw [h2, hr]; exact add_nonneg (ha _) (ha _)
        · rw [hx x h1 h2]; exact ha x
    have hd : ∑ x, b.2 x * f x - ∑ x, a.2 x * f x = a.2 k * (f r - f k) := by
      rw [← Finset.sum_sub_distrib]
      have : ∀ x, b.2 x * f x - a.2 x * f x = (if x = r then a.2 k * f r else 0) - (if x = k then a.2 k * f k else 0) := by
        intro x
        by_cases h1 : x = k
        · subst h1
          rw [if_neg (Ne.symm hne), if_pos rfl, hk]; ring
        · by_cases h2 : x = r
          · subst h2
            rw [if_pos rfl, if_neg h1, hr]; ring
          · rw [if_neg h2, if_neg h1, hx x h1 h2]; ring
      rw [Finset.sum_congr rfl fun x _ => this x, Finset.sum_sub_distrib, Finset.sum_ite_eq', Finset.sum_ite_eq', if_pos (Finset.mem_univ _), if_pos (Finset.mem_univ _)]
      ring
    have h1 : |∑ x, b.2 x * f x - ∑ x, a.2 x * f x| ≤ v := by
      rw [hd, abs_mul, abs_of_nonneg (ha k), hv]
      exact mul_le_mul_of_nonneg_left (hf r k) (ha k)
    have h2 := ih hb
    have h3 := abs_sub_le (∑ x, d.2 x * f x) (∑ x, b.2 x * f x) (∑ x, a.2 x * f x)
    linarith

theorem merge_at {c : Cfg n} {S0 : Nat → Fin n → V} {i : Nat} {own : Fin n → Fin n} {s : St n V} (g : Good c) (h : Inv c S0 i own s) (h2 : 2 ≤ (aliveSet s).card) :
    MergeAt c (s.alive, s.P) ((merge c i s).alive, (merge c i s).P) (costs c s (idxRem c s)) := by
  obtain ⟨hr, ha, hne⟩ := h.choice g h2
  have hD : ∀ r k, s.alive r = true → s.alive k = true → r ≠ k → maskD s.alive s.D r k = c.dist (c.T - 1) r k := by
    intro r k hr hk hrk
    unfold maskD
    rw [if_neg (by simp [hr, hk]), h.D r k hr hk]
    unfold initD
    rw [if_neg hrk, add_zero]
  have hv : costs c s (idxRem c s) = s.P (idxRem c s) * c.dist (c.T - 1) (idxAug c s) (idxRem c s) := by
    rw [← hD _ _ ha hr hne, mul_comm]
    conv_lhs => unfold costs
    rw [if_neg (by simp [hr])]
    rfl
  refine ⟨idxRem c s, idxAug c s, hr, ha, hne, hv, ?_, ?_, ?_, ?_, ?_⟩
  · intro k' r' (hk' : s.alive k' = true) (hr' : s.alive r' = true) hne'
    have h1 : costs c s (idxRem c s) ≤ costs c s k' := g.argmin (costs c s) k'
    have h3 : maskD s.alive s.D (c.argsort0 (fun r => maskD s.alive s.D r k')) k' ≤ maskD s.alive s.D r' k' := g.argsort0 (fun r => maskD s.alive s.D r k') r'
    rw [hD r' k' hr' hk' hne'] at h3
    have h4 : costs c s k' = maskD s.alive s.D (c.argsort0 (fun r => maskD s.alive s.D r k')) k' * s.P k' := by
      unfold costs
      rw [if_neg (by simp [hk'])]
    have hp := (h.pos_iff k').2 hk'
    have h5 := mul_le_mul_of_nonneg_right h3 (le_of_lt hp)
    rw [mul_comm]
    linarith
  · intro x
    unfold merge
    simp only
    split
    · rename_i hx; simp [hx]
    · rename_i hx; simp [hx]
  · unfold merge; simp
  · unfold merge; simp [hne]
  · intro x h1 h3
    unfold merge
    simp [h1, h3]

theorem loop_stop (c : Cfg n) (i : Nat) (dmax : ℚ) (f : Nat) (rel : Option ℚ) (dp : ℚ) (s : St n V) (h : goOn c i rel s = false) : loop c i dmax f rel dp s = s := by
  cases f with
  | zero => rfl
  | succ f => simp only [loop]; rw [h]; rfl

theorem loop_tol {c : Cfg n} {S0 : Nat → Fin n → V} {i : Nat} (g : Good c) (dmax : ℚ) (hd : 0 < dmax) (ht : tolAt c i ≠ infty) (hn : nodesAt c i = 1) :
    ∀ (f : Nat) (dp : ℚ) (own : Fin n → Fin n) (s : St n V), Inv c S0 i own s → (aliveSet s).card ≤ f + 1 → goOn c i (some (dp / dmax)) s = true →
      ∃ b w v, Merges c (s.alive, s.P) b w ∧ dp + w < tolAt c i * dmax ∧
        MergeAt c b ((loop c i dmax f (some (dp / dmax)) dp s).alive, (loop c i dmax f (some (dp / dmax)) dp s).P) v ∧
        ((aliveSet (loop c i dmax f (some (dp / dmax)) dp s)).card = 1 ∨ tolAt c i * dmax ≤ dp + w + v) := by
  intro f
  induction f with
  | zero =>
    intro dp own s h hc hg
    have := (goOn_two g h hg).1
    omega
  | succ f ih =>
    intro dp own s h hc hg
    have h2 := (goOn_two g h hg).1
    obtain ⟨hm, hcard⟩ := h.merge g h2
    have hlt : dp < tolAt c i * dmax := by
      unfold goOn at hg
      rw [Bool.and_eq_true, decide_eq_true_eq] at hg
      have := hg.1
      rwa [div_lt_iff₀ hd] at this
    have hr : ratio (dp + costs c s (idxRem c s)) dmax = some ((dp + costs c s (idxRem c s)) / dmax) := by
      unfold ratio
      rw [if_neg hd.ne']
    simp only [loop]
    rw [if_pos hg, if_neg ht, hr]
    by_cases hg' : goOn c i (some ((dp + costs c s (idxRem c s)) / dmax)) (merge c i s) = true
    · obtain ⟨b, w, v, m1, m2, m3, m4⟩ := ih _ _ _ hm (by omega) hg'
      exact ⟨b, costs c s (idxRem c s) + w, v, Merges.more (merge_at g h h2) m1, by linarith, m3, m4.imp id (fun x => by linarith)⟩
    · rw [loop_stop c i dmax f _ _ _ (by simpa using hg')]
      refine ⟨_, 0, costs c s (idxRem c s), Merges.none _, by linarith, merge_at g h h2, ?_⟩
      unfold goOn at hg'
      rw [Bool.and_eq_true, decide_eq_true_eq, hm.branches, hn] at hg'
      simp only [decide_eq_true_eq] at hg'
      rw [div_lt_iff₀ hd] at hg'
      have hne := hm.nonempty (idxRem c s)
      by_cases hx : 1 < (aliveSet (merge c i s)).card
      · right
        have : ¬ dp + costs c s (idxRem c s) < tolAt c i * dmax := fun hy => hg' ⟨hy, hx⟩
        linarith [not_lt.1 this]
      · left
        omega

theorem survivors_sum (s : St n V) (f : Fin n → ℚ) : ((survivors s).map f).sum = ∑ r, if s.alive r = true then f r else 0 := by
  have hnd : (survivors s).Nodup := (List.nodup_finRange n).filter _
  rw [← List.sum_toFinset f hnd, ← Finset.sum_filter]
  congr 1
  ext x
  simp [survivors]

/-- The smallest sum of the distances of the survivors `al` to one of them, over the first `i + 1` steps. -/
def LeastSum (c : Cfg n) (i : Nat) (al : Fin n → Bool) (m : ℚ) : Prop :=
  (∃ k, al k = true ∧ m = ∑ r, if al r = true ∧ r ≠ k then c.dist i r k else 0) ∧ ∀ k, al k = true → m ≤ ∑ r, if al r = true ∧ r ≠ k then c.dist i r k else 0

theorem deltaMax_least (c : Cfg n) (i : Nat) (s : St n V) (h : survivors s ≠ []) : LeastSum c i s.alive (deltaMax c i s) := by
  have e : ∀ k, ((survivors s).map (fun (r : Fin n) => if r = k then 0 else c.dist i r k)).sum = ∑ r, if s.alive r = true ∧ r ≠ k then c.dist i r k else 0 := by
    intro k
    rw [survivors_sum]
    refine Finset.sum_congr rfl fun r _ => ?_
    by_cases h1 : s.alive r = true <;> by_cases h2 : r = k <;> simp [h1, h2]
  have hl : (survivors s).map (fun (k : Fin n) => ((survivors s).map (fun (r : Fin n) => if r = k then 0 else c.dist i r k)).sum) ≠ [] := by simpa using h
  have hm := min?_mem_getD hl
  obtain ⟨k, hk, hk'⟩ := List.mem_map.1 hm
  refine ⟨⟨k, (List.mem_filter.1 hk).2, ?_⟩, fun k hk => ?_⟩
  · rw [← e k, hk']; rfl
  · rw [← e k]
    unfold deltaMax
    have hmem : ((survivors s).map (fun (r : Fin n) => if r = k then 0 else c.dist i r k)).sum ∈ (survivors s).map (fun (k : Fin n) => ((survivors s).map (fun (r : Fin n) => if r = k then 0 else c.dist i r k)).sum) :=
      List.mem_map.2 ⟨k, List.mem_filter.2 ⟨List.mem_finRange k, hk⟩, rfl⟩
    cases hmin : ((survivors s).map (fun (k : Fin n) => ((survivors s).map (fun (r : Fin n) => if r = k then 0 else c.dist i r k)).sum)).min? with
    | none => rw [List.min?_eq_none_iff] at hmin; exact absurd hmin hl
    | some m => exact (List.min?_eq_some_iff.1 hmin).2 _ hmem

/-- C305 (tolerance): in tolerance mode the scenarios are merged, cheapest first, until the costs of the merges of step `i` exceed `tol / 1.5^(i+2)` times the smallest sum of distances, or one scenario is left; the sum is not weighted with the probabilities. -/
theorem C305_tolerance (c : Cfg n) (S0 : Nat → Fin n → V) (g : Good c) (hreq : ∀ j, j < c.T → c.nodes j = 1) (htol : 0 < c.tol) (i : Nat) (hi : i < c.T) (hi0 : 1 ≤ i)
    (hinf : c.tol / (3 / 2) ^ (i + 2) ≠ infty) (h2 : 2 ≤ count c S0 (i + 1)) (hs : Spread c S0 i) :
    ∃ m b w v, LeastSum c i (row c S0 (i + 1)).alive m ∧ 0 < m ∧ Merges c ((row c S0 (i + 1)).alive, (row c S0 (i + 1)).P) b w ∧ w < c.tol / (3 / 2) ^ (i + 2) * m ∧
      MergeAt c b ((row c S0 i).alive, (row c S0 i).P) v ∧ (count c S0 i = 1 ∨ c.tol / (3 / 2) ^ (i + 2) * m ≤ w + v) := by
  have hdef : isDefault c = true := by
    unfold isDefault
    rw [List.all_eq_true]
    intro j hj
    simpa using hreq j (List.mem_range.1 hj)
  have ht : tolAt c i = c.tol / (3 / 2) ^ (i + 2) := by unfold tolAt; rw [hdef, if_pos rfl, if_neg (by omega)]
  have hn : nodesAt c i = 1 := by unfold nodesAt; rw [if_neg (by omega)]; exact hreq i hi
  obtain ⟨own, hI⟩ := row_inv c S0 g i hi
  have hne : survivors (row c S0 (i + 1)) ≠ [] := by
    obtain ⟨a, ha⟩ := Finset.card_pos.1 (show 0 < (aliveSet (row c S0 (i + 1))).card by unfold count at h2; omega)
    intro he
    have : a ∈ survivors (row c S0 (i + 1)) := by
      unfold survivors aliveSet at *
      rw [List.mem_filter]
      exact ⟨List.mem_finRange a, (Finset.mem_filter.1 ha).2⟩
    rw [he] at this
    cases this
  have hleast := deltaMax_least c i (row c S0 (i + 1)) hne
  have hd0 := deltaMax_pos c S0 g i hs h2
  have hd : 0 < deltaMax c i (row c S0 (i + 1)) := by
    refine lt_of_le_of_ne ?_ (Ne.symm hd0)
    obtain ⟨⟨k, -, hk⟩, -⟩ := hleast
    rw [hk]
    refine Finset.sum_nonneg fun r _ => ?_
    split
    · exact g.nonneg _ _ _
    · exact le_rfl
  have hgo : goOn c i (some (0 / deltaMax c i (row c S0 (i + 1)))) (row c S0 (i + 1)) = true := by
    unfold goOn
    rw [Bool.and_eq_true, decide_eq_true_eq, hI.branches, hn, zero_div, ht]
    simp only [decide_eq_true_eq]
    refine ⟨by positivity, ?_⟩
    unfold count at h2
    omega
  have hc : (aliveSet (row c S0 (i + 1))).card ≤ n + 1 := by
    have := Finset.card_le_univ (aliveSet (row c S0 (i + 1)))
    rw [Fintype.card_fin] at this
    omega
  obtain ⟨b, w, v, m1, m2, m3, m4⟩ := loop_tol g _ hd (by rw [ht]; exact hinf) hn n 0 own _ hI hc hgo
  rw [zero_div] at m3 m4
  have hP : (row c S0 i).P = (loop c i (deltaMax c i (row c S0 (i + 1))) n (some 0) 0 (row c S0 (i + 1))).P := by
    rw [row_step c S0 i hi]
    unfold stepAt
    simp only
    split <;> rfl
  have hA : (row c S0 i).alive = (loop c i (deltaMax c i (row c S0 (i + 1))) n (some 0) 0 (row c S0 (i + 1))).alive := by rw [row_step c S0 i hi, stepAt_alive]
  rw [zero_add, ht] at m2
  rw [zero_add, ht] at m4
  refine ⟨_, b, w, v, hleast, hd, m1, m2, by rw [hP, hA]; exact m3, ?_⟩
  rw [count_step c S0 i hi]
  exact m4

/-- C305 (scale): at the last step the sum is the number of scenarios times the distance of the scenarios to a tree with a single one of them, which the tolerance should refer to. -/
theorem C305_scale (c : Cfg n) (S0 : Nat → Fin n → V) (hn : 1 ≤ n) (i : Nat) (m : ℚ) (h : LeastSum c i (row c S0 c.T).alive m) :
    (∃ k, m = n * ∑ r, if r ≠ k then (row c S0 c.T).P r * c.dist i r k else 0) ∧ ∀ k, m ≤ n * ∑ r, if r ≠ k then (row c S0 c.T).P r * c.dist i r k else 0 := by
  obtain ⟨ha, hP⟩ := C95_start c S0
  have hn' : (n : ℚ) ≠ 0 := by exact_mod_cast (by omega : n ≠ 0)
  have e : ∀ k, (∑ r, if (row c S0 c.T).alive r = true ∧ r ≠ k then c.dist i r k else 0) = n * ∑ r, if r ≠ k then (row c S0 c.T).P r * c.dist i r k else 0 := by
    intro k
    rw [Finset.mul_sum]
    refine Finset.sum_congr rfl fun r _ => ?_
    rw [ha, hP]
    by_cases h2 : r = k
    · simp [h2]
    · simp only [true_and, ne_eq, h2, not_false_eq_true, if_true]
      field_simp
  obtain ⟨⟨k, -, hk⟩, hall⟩ := h
  exact ⟨⟨k, by rw [hk, e k]⟩, fun k => by rw [← e k]; exact hall k (by rw [ha])⟩

end PyF.Scenred
