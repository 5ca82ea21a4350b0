import Verif.Scenred.Lemmas
import Mathlib.Tactic.Set
import Mathlib.Algebra.BigOperators.Field

namespace PyF.Scenred
open PyF

variable {n : Nat} {V : Type}

/-- C48: the reduced scenarios form a tree made of sample values. There are representatives `own i` for each step: the
representative of a scenario survives at the step, survivors represent themselves, the probability of a survivor is the
fraction of the scenarios it represents, representatives at step `i` factor through those at step `i + 1` (branches never
merge forward in time), and the reduced value of scenario `k` at step `i` is the sample of its representative. -/
theorem C48_reduction_is_a_tree (c : Cfg n) (S0 : Nat → Fin n → V) (g : Good c) :
    ∃ own : Nat → Fin n → Fin n, ∀ i, i < c.T →
      (∀ k, (row c S0 i).alive (own i k) = true) ∧
      (∀ a, (row c S0 i).alive a = true → own i a = a) ∧
      (∀ a, (row c S0 i).P a = ((Finset.univ.filter (fun k => own i k = a)).card : ℚ) / n) ∧
      (∀ k, i + 1 < c.T → own i k = own i (own (i + 1) k)) ∧
      (∀ a, (row c S0 i).alive a = true → (row c S0 (i + 1)).alive a = true) ∧
      (∀ k, finalS c S0 i k = S0 i (own i k)) := by
  obtain ⟨own, _, h⟩ := after_inv (c := c) (S0 := S0) g
  refine ⟨fun i => own (c.T - i), ?_⟩
  intro i hi
  obtain ⟨hI, _⟩ := h (c.T - i) (by omega)
  have hprev := (h (c.T - (i + 1)) (by omega)).2 (by omega)
  have e1 : c.T - (i + 1) + 1 = c.T - i := by omega
  have e2 : c.T - 1 - (c.T - (i + 1)) = i := by omega
  rw [e1, e2] at hprev
  refine ⟨hI.alive_own, hI.own_alive, hI.P, fun k _ => hprev.own k, fun a ha => hprev.sub a ha, ?_⟩
  -- values at step i are not touched afterwards
  have hfix : ∀ m, c.T - i + m ≤ c.T → ∀ k, (after c S0 (c.T - i + m)).S i k = (after c S0 (c.T - i)).S i k := by
    intro m
    induction m with
    | zero => intro _ k; rfl
    | succ m ih =>
      intro hm k
      have hr := (h (c.T - i + m) (by omega)).2 (by omega)
      rw [show c.T - i + (m + 1) = c.T - i + m + 1 by omega, hr.later i (by omega) k]
      exact ih (by omega) k
  intro k
  unfold finalS
  have := hfix i (by omega) k
  rw [show c.T - i + i = c.T by omega] at this
  rw [this]
  exact hI.S i (by omega) k

/-- Two scenarios with the same representative at step `i` have the same reduced values up to step `i`. -/
theorem C48_merged_share_past (c : Cfg n) (S0 : Nat → Fin n → V) (g : Good c) :
    ∃ own : Nat → Fin n → Fin n, (∀ i, i < c.T → ∀ k, (row c S0 i).alive (own i k) = true ∧ ((row c S0 i).alive k = true → own i k = k)) ∧
      ∀ i, i < c.T → ∀ k l, own i k = own i l → ∀ t, t ≤ i → finalS c S0 t k = finalS c S0 t l := by
  obtain ⟨own, h⟩ := C48_reduction_is_a_tree c S0 g
  refine ⟨own, fun i hi k => ⟨(h i hi).1 k, (h i hi).2.1 k⟩, ?_⟩
  intro i hi k l hkl t ht
  have key : ∀ d, d ≤ i → own (i - d) k = own (i - d) l := by
    intro d
    induction d with
    | zero => intro _; exact hkl
    | succ d ih =>
      intro hd
      have h1 := (h (i - (d + 1)) (by omega)).2.2.2.1
      rw [h1 k (by omega), h1 l (by omega), show i - (d + 1) + 1 = i - d by omega, ih (by omega)]
  have := key (i - t) (by omega)
  rw [show i - (i - t) = t by omega] at this
  rw [(h t (by omega)).2.2.2.2.2 k, (h t (by omega)).2.2.2.2.2 l, this]

theorem sum_own (n : Nat) (hn : 1 ≤ n) (own : Fin n → Fin n) : ∑ a, ((Finset.univ.filter (fun k => own k = a)).card : ℚ) / n = 1 := by
  rw [← Finset.sum_div]
  have : ∑ a : Fin n, (Finset.univ.filter (fun k => own k = a)).card = n := by
    rw [Finset.sum_card_fiberwise_eq_card_filter]
    simp
  have h2 : ∑ a : Fin n, ((Finset.univ.filter (fun k => own k = a)).card : ℚ) = n := by exact_mod_cast this
  rw [h2]
  have : (n : ℚ) ≠ 0 := by exact_mod_cast (by omega : n ≠ 0)
  field_simp

theorem row_pos (c : Cfg n) (S0 : Nat → Fin n → V) (g : Good c) (i : Nat) (hi : i < c.T) (a : Fin n) :
    0 < (row c S0 i).P a ↔ (row c S0 i).alive a = true := by
  obtain ⟨own, _, h⟩ := after_inv (c := c) (S0 := S0) g
  exact ((h (c.T - i) (by omega)).1).pos_iff a

theorem alive_chain (c : Cfg n) (S0 : Nat → Fin n → V) (g : Good c) (i : Nat) : ∀ d, i + d < c.T → ∀ a,
    (row c S0 i).alive a = true → (row c S0 (i + d)).alive a = true := by
  obtain ⟨own, h⟩ := C48_reduction_is_a_tree c S0 g
  intro d
  induction d with
  | zero => intro _ a ha; exact ha
  | succ d ih =>
    intro hd a ha
    exact (h (i + d) (by omega)).2.2.2.2.1 a (ih (by omega) a ha)

/-- C46: at every step the probabilities of the survivors are positive, all others are zero, and the columns that are returned
have probabilities summing to one. -/
theorem C46_probability (c : Cfg n) (S0 : Nat → Fin n → V) (g : Good c) (hn : 1 ≤ n) (i : Nat) (hi : i < c.T) :
    (∀ a, 0 < (row c S0 i).P a ↔ (row c S0 i).alive a = true) ∧ (∀ a, (row c S0 i).alive a = false → (row c S0 i).P a = 0) ∧
      ∑ a, (row c S0 i).P a = 1 ∧ ((columns c S0).map (row c S0 i).P).sum = 1 := by
  obtain ⟨own, h⟩ := C48_reduction_is_a_tree c S0 g
  have hpos := row_pos c S0 g i hi
  have hzero : ∀ a, (row c S0 i).alive a = false → (row c S0 i).P a = 0 := by
    intro a ha
    have h1 : ¬ 0 < (row c S0 i).P a := by rw [hpos, ha]; simp
    have h2 : 0 ≤ (row c S0 i).P a := by rw [(h i hi).2.2.1 a]; positivity
    linarith
  have hsum : ∑ a, (row c S0 i).P a = 1 := by
    simp only [(h i hi).2.2.1]
    exact sum_own n hn (own i)
  refine ⟨hpos, hzero, hsum, ?_⟩
  rw [← hsum]
  unfold columns survivors
  have hnd : ((List.finRange n).filter (row c S0 (c.T - 1)).alive).Nodup := (List.nodup_finRange n).filter _
  rw [← List.sum_toFinset _ hnd]
  apply Finset.sum_subset (Finset.subset_univ _)
  intro a _ ha
  apply hzero
  by_contra hal
  apply ha
  have hal' : (row c S0 i).alive a = true := by simpa using hal
  have := alive_chain c S0 g i (c.T - 1 - i) (by omega) a hal'
  rw [show i + (c.T - 1 - i) = c.T - 1 by omega] at this
  simp [this]

/-! ### C47: node counts -/

/-- Number of scenarios surviving a step. -/
def count (c : Cfg n) (S0 : Nat → Fin n → V) (i : Nat) : Nat := (aliveSet (row c S0 i)).card

/-- When step `i` starts, no surviving scenario coincides with all the other ones over the first `i + 1` steps. -/
def Spread (c : Cfg n) (S0 : Nat → Fin n → V) (i : Nat) : Prop :=
  ∀ k, (row c S0 (i + 1)).alive k = true → 2 ≤ count c S0 (i + 1) → ∃ r, (row c S0 (i + 1)).alive r = true ∧ r ≠ k ∧ 0 < c.dist i r k

theorem min?_mem_getD {l : List ℚ} (h : l ≠ []) : l.min?.getD 0 ∈ l := by
  cases hm : l.min? with
  | none => rw [List.min?_eq_none_iff] at hm; exact absurd hm h
  | some m => exact List.min?_mem hm

theorem deltaMax_pos (c : Cfg n) (S0 : Nat → Fin n → V) (g : Good c) (i : Nat) (hs : Spread c S0 i) (h2 : 2 ≤ count c S0 (i + 1)) :
    deltaMax c i (row c S0 (i + 1)) ≠ 0 := by
  unfold deltaMax
  have hne : survivors (row c S0 (i + 1)) ≠ [] := by
    obtain ⟨a, ha⟩ := Finset.card_pos.1 (show 0 < (aliveSet (row c S0 (i + 1))).card by unfold count at h2; omega)
    intro he
    have : a ∈ survivors (row c S0 (i + 1)) := by
      unfold survivors aliveSet at *
      rw [List.mem_filter]
      exact ⟨List.mem_finRange a, (Finset.mem_filter.1 ha).2⟩
    rw [he] at this
    cases this
  have hmem := min?_mem_getD (l := (survivors (row c S0 (i + 1))).map (fun (k : Fin n) => ((survivors (row c S0 (i + 1))).map (fun (r : Fin n) => if r = k then 0 else c.dist i r k)).sum))
    (by simpa using hne)
  obtain ⟨k, hk, he⟩ := List.mem_map.1 hmem
  rw [← he]
  have hka : (row c S0 (i + 1)).alive k = true := (List.mem_filter.1 hk).2
  obtain ⟨r, hr, hrk, hd⟩ := hs k hka h2
  have hnn : ∀ x ∈ (survivors (row c S0 (i + 1))).map (fun (r : Fin n) => if r = k then 0 else c.dist i r k), 0 ≤ x := by
    intro x hx
    obtain ⟨r, _, rfl⟩ := List.mem_map.1 hx
    split
    · exact le_refl _
    · exact g.nonneg _ _ _
  have hle : (if r = k then 0 else c.dist i r k) ≤ ((survivors (row c S0 (i + 1))).map (fun (r : Fin n) => if r = k then 0 else c.dist i r k)).sum :=
    List.single_le_sum hnn _ (List.mem_map.2 ⟨r, List.mem_filter.2 ⟨List.mem_finRange r, hr⟩, rfl⟩)
  rw [if_neg hrk] at hle
  exact ne_of_gt (lt_of_lt_of_le hd hle)

theorem row_step (c : Cfg n) (S0 : Nat → Fin n → V) (i : Nat) (hi : i < c.T) : row c S0 i = stepAt c i (row c S0 (i + 1)) := by
  unfold row
  rw [show c.T - i = (c.T - (i + 1)) + 1 by omega]
  conv_lhs => unfold after
  rw [show c.T - 1 - (c.T - (i + 1)) = i by omega]

theorem count_step (c : Cfg n) (S0 : Nat → Fin n → V) (i : Nat) (hi : i < c.T) :
    count c S0 i = (aliveSet (loop c i (deltaMax c i (row c S0 (i + 1))) n (some 0) 0 (row c S0 (i + 1)))).card := by
  unfold count aliveSet
  rw [row_step c S0 i hi, stepAt_alive]

theorem row_inv (c : Cfg n) (S0 : Nat → Fin n → V) (g : Good c) (i : Nat) (hi : i < c.T) :
    ∃ own, Inv c S0 i own (row c S0 (i + 1)) := by
  obtain ⟨own, _, h⟩ := after_inv (c := c) (S0 := S0) g
  exact ⟨_, ((h (c.T - (i + 1)) (by omega)).1).mono (by omega)⟩

theorem count_fixed_step (c : Cfg n) (S0 : Nat → Fin n → V) (g : Good c) (i : Nat) (hi : i < c.T) (ht : tolAt c i = infty)
    (hs : Spread c S0 i) : count c S0 i = min (count c S0 (i + 1)) (nodesAt c i) := by
  obtain ⟨own, hI⟩ := row_inv c S0 g i hi
  rw [count_step c S0 i hi]
  have hcn : count c S0 (i + 1) ≤ n := by
    unfold count
    have := Finset.card_le_univ (aliveSet (row c S0 (i + 1)))
    rwa [Fintype.card_fin] at this
  by_cases h2 : 2 ≤ count c S0 (i + 1)
  · exact loop_card g _ ht (deltaMax_pos c S0 g i hs h2) n own _ hI (by unfold count at hcn; omega)
  · have hn1 : 1 ≤ nodesAt c i := by
      unfold nodesAt; split
      · exact le_refl _
      · exact g.nodes i
    have hgo : goOn c i (some 0) (row c S0 (i + 1)) = false := by
      unfold goOn
      rw [hI.branches]
      unfold count at h2
      rw [Bool.and_eq_false_iff]
      right
      simp only [decide_eq_false_iff_not]
      omega
    have : loop c i (deltaMax c i (row c S0 (i + 1))) n (some 0) 0 (row c S0 (i + 1)) = row c S0 (i + 1) := by
      cases n with
      | zero => rfl
      | succ f => simp only [loop]; rw [if_neg (by rw [hgo]; simp)]
    rw [this]
    show count c S0 (i + 1) = _
    omega

theorem count_top (c : Cfg n) (S0 : Nat → Fin n → V) : count c S0 c.T = n := by
  unfold count row aliveSet
  rw [Nat.sub_self]
  simp [after, initSt]

/-- C47: with numbers of nodes requested (not all 1) and scenarios that do not coincide, the number of survivors at step `i`
is the smallest of the requests at the steps from `i` on (the request for the root being 1) and the number of scenarios. -/
theorem C47_node_counts (c : Cfg n) (S0 : Nat → Fin n → V) (g : Good c) (hreq : ∃ j, j < c.T ∧ c.nodes j ≠ 1) (hs : ∀ j, j < c.T → Spread c S0 j)
    (i : Nat) (hi : i < c.T) :
    count c S0 i ≤ n ∧ (∀ j, i ≤ j → j < c.T → count c S0 i ≤ if j = 0 then 1 else c.nodes j) ∧
      (count c S0 i = n ∨ ∃ j, i ≤ j ∧ j < c.T ∧ count c S0 i = if j = 0 then 1 else c.nodes j) := by
  have hdef : isDefault c = false := by
    unfold isDefault
    rw [List.all_eq_false]
    obtain ⟨j, hj, hne⟩ := hreq
    exact ⟨j, List.mem_range.2 hj, by simpa using hne⟩
  have ht : ∀ j, tolAt c j = infty := by intro j; unfold tolAt; rw [hdef]; rfl
  have key : ∀ d, d ≤ c.T → count c S0 (c.T - d) ≤ n ∧ (∀ j, c.T - d ≤ j → j < c.T → count c S0 (c.T - d) ≤ nodesAt c j) ∧
      (count c S0 (c.T - d) = n ∨ ∃ j, c.T - d ≤ j ∧ j < c.T ∧ count c S0 (c.T - d) = nodesAt c j) := by
    intro d
    induction d with
    | zero =>
      intro _
      rw [Nat.sub_zero, count_top]
      exact ⟨le_refl _, fun j h1 h2 => absurd h2 (by omega), Or.inl rfl⟩
    | succ d ih =>
      intro hd
      obtain ⟨h1, h2, h3⟩ := ih (by omega)
      have hstep := count_fixed_step c S0 g (c.T - (d + 1)) (by omega) (ht _) (hs _ (by omega))
      rw [show c.T - (d + 1) + 1 = c.T - d by omega] at hstep
      refine ⟨by omega, ?_, ?_⟩
      · intro j hj1 hj2
        by_cases hj : j = c.T - (d + 1)
        · rw [hj]; omega
        · have := h2 j (by omega) hj2
          omega
      · rcases Nat.le_total (count c S0 (c.T - d)) (nodesAt c (c.T - (d + 1))) with hle | hle
        · rw [hstep, Nat.min_eq_left hle]
          rcases h3 with h3 | ⟨j, hj1, hj2, hj3⟩
          · exact Or.inl h3
          · exact Or.inr ⟨j, by omega, hj2, hj3⟩
        · right
          exact ⟨c.T - (d + 1), le_refl _, by omega, by rw [hstep, Nat.min_eq_right hle]⟩
  have := key (c.T - i) (by omega)
  rw [show c.T - (c.T - i) = i by omega] at this
  exact this

/-- C47 (tree shape): the number of survivors never decreases with time and, if nothing stalls at the root, is 1 there. -/
theorem C47_monotone (c : Cfg n) (S0 : Nat → Fin n → V) (g : Good c) (hn : 1 ≤ n) (i j : Nat) (hij : i ≤ j) (hj : j < c.T) :
    1 ≤ count c S0 i ∧ count c S0 i ≤ count c S0 j ∧ (Spread c S0 0 → count c S0 0 = 1) := by
  refine ⟨?_, ?_, ?_⟩
  · obtain ⟨own, _, h⟩ := after_inv (c := c) (S0 := S0) g
    exact ((h (c.T - i) (by omega)).1).nonempty ⟨0, by omega⟩
  · apply Finset.card_le_card
    intro a ha
    unfold aliveSet at ha ⊢
    rw [Finset.mem_filter] at ha ⊢
    refine ⟨ha.1, ?_⟩
    have := alive_chain c S0 g i (j - i) (by omega) a ha.2
    rwa [show i + (j - i) = j by omega] at this
  · intro hs
    have h0 : tolAt c 0 = infty := by unfold tolAt; split <;> simp
    have hstep := count_fixed_step c S0 g 0 (by omega) h0 hs
    have h1 : 1 ≤ count c S0 0 := by
      obtain ⟨own, _, h⟩ := after_inv (c := c) (S0 := S0) g
      exact ((h (c.T - 0) (by omega)).1).nonempty ⟨0, by omega⟩
    have : nodesAt c 0 = 1 := rfl
    omega

/-! ### C92: coinciding scenarios stall the reduction -/

/-- C92: if the survivors all coincide over the first `i + 1` steps, step `i` removes at most one of them, whatever was
requested. -/
theorem C92_coinciding_scenarios_stall (c : Cfg n) (S0 : Nat → Fin n → V) (g : Good c) (i : Nat) (hi : i < c.T)
    (hz : ∀ r k, (row c S0 (i + 1)).alive r = true → (row c S0 (i + 1)).alive k = true → c.dist i r k = 0) :
    count c S0 (i + 1) ≤ count c S0 i + 1 := by
  obtain ⟨own, hI⟩ := row_inv c S0 g i hi
  have hd : deltaMax c i (row c S0 (i + 1)) = 0 := by
    unfold deltaMax
    by_cases hne : survivors (row c S0 (i + 1)) = []
    · rw [hne]; rfl
    · have hmem := min?_mem_getD (l := (survivors (row c S0 (i + 1))).map (fun (k : Fin n) => ((survivors (row c S0 (i + 1))).map (fun (r : Fin n) => if r = k then 0 else c.dist i r k)).sum))
        (by simpa using hne)
      obtain ⟨k, hk, he⟩ := List.mem_map.1 hmem
      rw [← he]
      apply List.sum_eq_zero
      intro x hx
      obtain ⟨r, hr, rfl⟩ := List.mem_map.1 hx
      split
      · rfl
      · exact hz r k (List.mem_filter.1 hr).2 (List.mem_filter.1 hk).2
  rw [count_step c S0 i hi, hd]
  exact loop_card_stall g n (some 0) 0 own _ hI

/-! ### C93: the tolerance -/

/-- C93: requesting one node at every step is the default and selects the tolerance mode. Then a positive tolerance, however
small, removes at least one scenario at every step while more than one is left; a non-positive one keeps all
scenarios until the root. -/
theorem C93_tolerance_mode (c : Cfg n) (S0 : Nat → Fin n → V) (g : Good c) (hreq : ∀ j, j < c.T → c.nodes j = 1) (i : Nat) (hi : i < c.T) (hi0 : 1 ≤ i) :
    (0 < c.tol → 2 ≤ count c S0 (i + 1) → count c S0 i < count c S0 (i + 1)) ∧
      (c.tol ≤ 0 → count c S0 i = n) := by
  have hdef : isDefault c = true := by
    unfold isDefault
    rw [List.all_eq_true]
    intro j hj
    simpa using hreq j (List.mem_range.1 hj)
  have ht : ∀ j, 1 ≤ j → tolAt c j = c.tol / (3 / 2) ^ (j + 2) := by
    intro j hj; unfold tolAt; rw [hdef, if_pos rfl, if_neg (by omega)]
  constructor
  · intro htol h2
    obtain ⟨own, hI⟩ := row_inv c S0 g i hi
    rw [count_step c S0 i hi]
    have hn : 1 ≤ n := by
      have := Finset.card_le_univ (aliveSet (row c S0 (i + 1)))
      rw [Fintype.card_fin] at this
      unfold count at h2; omega
    apply loop_card_drops g _ n hn own _ hI
    · rw [ht i hi0]; positivity
    · unfold nodesAt
      rw [if_neg (by omega), hreq i hi]
      unfold count at h2
      omega
  · intro htol
    have key : ∀ d, c.T - d ≥ 1 → d ≤ c.T → count c S0 (c.T - d) = n := by
      intro d
      induction d with
      | zero => intro _ _; rw [Nat.sub_zero, count_top]
      | succ d ih =>
        intro hd hd2
        rw [count_step c S0 _ (by omega)]
        have hle : ¬ (0 : ℚ) < tolAt c (c.T - (d + 1)) := by
          rw [ht _ (by omega), not_lt]
          exact div_nonpos_of_nonpos_of_nonneg htol (by positivity)
        have hgo : goOn c (c.T - (d + 1)) (some 0) (row c S0 (c.T - (d + 1) + 1)) = false := by
          unfold goOn
          simp only [hle, decide_false, Bool.false_and]
        have : loop c (c.T - (d + 1)) (deltaMax c (c.T - (d + 1)) (row c S0 (c.T - (d + 1) + 1))) n (some 0) 0 (row c S0 (c.T - (d + 1) + 1)) =
            row c S0 (c.T - (d + 1) + 1) := by
          cases n with
          | zero => rfl
          | succ f => simp only [loop]; rw [if_neg (by rw [hgo]; simp)]
        rw [this, show c.T - (d + 1) + 1 = c.T - d by omega]
        exact ih (by omega) (by omega)
    have := key (c.T - i) (by omega) (by omega)
    rwa [show c.T - (c.T - i) = i by omega] at this

end PyF.Scenred
