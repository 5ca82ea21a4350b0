import Verif.Refine.Lemmas
import Verif.Quantile.Props
import Mathlib.Data.Finset.Card
import Mathlib.Tactic.Ring

namespace PyF.Refine
open PyF

variable {d : ℕ} {E : Type}

/-- The values of the nodes of step `t`, in node order (specification). -/
def Spec.valuesAt (g : List (Node d E)) (t : ℕ) : List (Pt d) := g.filterMap (fun n => if n.t = t then some n.v else none)

theorem vals_eq (g : List (Node d E)) (t : ℕ) : vals t g = Spec.valuesAt g t := by
  unfold vals Spec.valuesAt
  induction g with
  | nil => rfl
  | cons n g ih =>
    rw [List.filter_cons, List.filterMap_cons]
    by_cases h : n.t = t
    · simp [h, ih]
    · simp [h, ih]

theorem mem_vals_ne (g : List (Node d E)) (t : ℕ) : vals t g ≠ [] ↔ ∃ n ∈ g, n.t = t := by
  unfold vals
  rw [Ne, List.map_eq_nil_iff, List.filter_eq_nil_iff]
  simp

theorem nSteps_eq (g : List (Node d E)) : nSteps g = (g.map (·.t)).toFinset.card := by
  unfold nSteps; rw [List.card_toFinset]

/-- In a graph whose steps can all be processed, the times are `0, ..., T-1`. -/
theorem times_iff (g : List (Node d E)) (h : ∀ t, t < nSteps g → vals t g ≠ []) (t : ℕ) : (∃ n ∈ g, n.t = t) ↔ t < nSteps g := by
  have hsub : Finset.range (nSteps g) ⊆ (g.map (·.t)).toFinset := by
    intro t ht
    obtain ⟨n, hn, hnt⟩ := (mem_vals_ne g t).1 (h t (Finset.mem_range.1 ht))
    rw [List.mem_toFinset]
    exact List.mem_map.2 ⟨n, hn, hnt⟩
  have heq := Finset.eq_of_subset_of_card_le hsub (by rw [Finset.card_range, nSteps_eq])
  constructor
  · rintro ⟨n, hn, hnt⟩
    have : t ∈ (g.map (·.t)).toFinset := by rw [List.mem_toFinset]; exact List.mem_map.2 ⟨n, hn, hnt⟩
    rw [← heq] at this
    exact Finset.mem_range.1 this
  · intro ht
    exact (mem_vals_ne g t).1 (h t ht)

/-- C196 (distances): the table has one row per step: the total distance of the samples of that step to the nearest node of the step, before and after. After the first step it does not increase,
whatever the random numbers and the metric. -/
theorem C196_distances (dist : Pt d → Pt d → ℚ) (cand : ℕ → ℕ → List (Pt d) → List (Pt d)) (samples : List (List (Pt d))) (g g' : List (Node d E)) (D : List (ℚ × ℚ))
    (h : refine dist cand samples g = .ok (g', D)) :
    D.length = (g.map (·.t)).toFinset.card ∧
    ∀ t, t < D.length → ∃ S x y, samples[t]? = some S ∧ D[t]? = some (x, y) ∧ Spec.Total dist (Spec.valuesAt g t) S x ∧ Spec.Total dist (Spec.valuesAt g' t) S y ∧ (1 ≤ t → y ≤ x) := by
  obtain ⟨h1, h2, h3, h4⟩ := refine_run dist cand samples g g' D h
  have hlen : D.length = nSteps g := by rw [h4]; simp
  refine ⟨by rw [hlen, nSteps_eq], ?_⟩
  intro t ht
  rw [hlen] at ht
  obtain ⟨hs1, hs2, hs3⟩ := h1 t ht
  have hS : samples[t]? = some (samples.getD t []) := by
    rw [List.getD_eq_getElem?_getD, List.getElem?_eq_getElem hs1]; rfl
  refine ⟨_, setDistance dist (vals t g) (samples.getD t []), setDistance dist (vals t g') (samples.getD t []), hS, ?_, ?_, ?_, ?_⟩
  · rw [h4, List.getElem?_map, List.getElem?_range ht]; rfl
  · rw [← vals_eq]; exact total_setDistance dist _ _ hs2
  · rw [← vals_eq]
    refine total_setDistance dist _ _ ?_
    intro hc
    have := same_count h2 t
    rw [hc] at this
    exact hs2 (List.length_eq_zero_iff.1 this.symm)
  · intro h1t
    rw [h3 t ht]
    exact (newAlphas_later dist cand t (by omega) _ _).2.1

theorem vals_index (g : List (Node d E)) (k : ℕ) (n : Node d E) (h : g[k]? = some n) :
    (vals n.t g)[((g.take k).filter (fun m => decide (m.t = n.t))).length]? = some n.v := by
  induction g generalizing k with
  | nil => simp at h
  | cons m g ih =>
    cases k with
    | zero =>
      simp only [List.getElem?_cons_zero, Option.some.injEq] at h
      subst h
      simp [vals]
    | succ k =>
      simp only [List.getElem?_cons_succ] at h
      have := ih k h
      rw [List.take_succ_cons, List.filter_cons]
      unfold vals at this ⊢
      rw [List.filter_cons]
      by_cases hm : m.t = n.t
      · simpa [hm] using this
      · simpa [hm] using this

theorem same_get {g g' : List (Node d E)} (h : Same g g') (k : ℕ) (n n' : Node d E) (hn : g[k]? = some n) (hn' : g'[k]? = some n') : n.t = n'.t ∧ n.p = n'.p ∧ n.e = n'.e := by
  unfold Same at h
  induction h generalizing k with
  | nil => simp at hn
  | cons h1 _ ih =>
    cases k with
    | zero =>
      simp only [List.getElem?_cons_zero, Option.some.injEq] at hn hn'
      subst hn hn'; exact h1
    | succ k => exact ih k (by simpa using hn) (by simpa using hn')

theorem same_take {g g' : List (Node d E)} (h : Same g g') (k t : ℕ) :
    ((g'.take k).filter (fun m => decide (m.t = t))).length = ((g.take k).filter (fun m => decide (m.t = t))).length := by
  unfold Same at h
  induction h generalizing k with
  | nil => rfl
  | cons h1 _ ih =>
    cases k with
    | zero => rfl
    | succ k =>
      rw [List.take_succ_cons, List.take_succ_cons, List.filter_cons, List.filter_cons, ← h1.1]
      split
      · simpa using ih k
      · exact ih k

/-- C196 (nodes): the new tree has the same nodes with the same times, **the same probabilities**, labels and edges. The value of a node after the first step is the old one or one of the candidates
drawn for that node; the value at the first step is the median of the samples, component by component. -/
theorem C196_nodes (dist : Pt d → Pt d → ℚ) (cand : ℕ → ℕ → List (Pt d) → List (Pt d)) (samples : List (List (Pt d))) (g g' : List (Node d E)) (D : List (ℚ × ℚ))
    (h : refine dist cand samples g = .ok (g', D)) :
    g'.length = g.length ∧ ∀ (k : ℕ) n n', g[k]? = some n → g'[k]? = some n' →
      n'.t = n.t ∧ n'.p = n.p ∧ n'.e = n.e ∧
      (n.t = 0 → ∀ S, samples[0]? = some S → S ≠ [] → ∀ j s, List.Perm s (S.map (fun p => p j)) → s.Pairwise (· ≤ ·) → n'.v j = (s.getD ((s.length - 1) / 2) 0 + s.getD (s.length / 2) 0) / 2) ∧
      (1 ≤ n.t → n'.v = n.v ∨ ∃ B, n'.v ∈ cand n.t ((g.take k).filter (fun m => decide (m.t = n.t))).length B) := by
  obtain ⟨h1, h2, h3, h4⟩ := refine_run dist cand samples g g' D h
  refine ⟨(List.Forall₂.length_eq h2).symm, ?_⟩
  intro k n n' hn hn'
  obtain ⟨e1, e2, e3⟩ := same_get h2 k n n' hn hn'
  have htime : n.t < nSteps g := (times_iff g (fun t ht => (h1 t ht).2.1) n.t).1 ⟨n, List.mem_of_getElem? hn, rfl⟩
  have hidx := vals_index g k n hn
  have hidx' := vals_index g' k n' hn'
  rw [← e1, same_take h2, h3 n.t htime] at hidx'
  refine ⟨e1.symm, e2.symm, e3.symm, ?_, ?_⟩
  · intro h0 S hS hne j s hp hs
    have hg : samples.getD n.t [] = S := by rw [h0, List.getD_eq_getElem?_getD, hS]; rfl
    rw [hg] at hidx'
    unfold newAlphas at hidx'
    rw [if_pos h0] at hidx'
    have hv : n'.v = median S := by
      have := List.mem_of_getElem? hidx'
      simpa using this
    rw [hv]
    unfold median Quantile.quantileVal
    have hsort : (S.map (fun p => p j)).insertionSort (· ≤ ·) = s := by
      refine List.Perm.eq_of_pairwise (le := (· ≤ ·)) ?_ (List.pairwise_insertionSort (· ≤ ·) _) hs ((List.perm_insertionSort _ _).trans hp.symm)
      intro a b _ _ h1 h2; exact le_antisymm h1 h2
    have hlen : (S.map (fun p => p j)).length = s.length := hp.length_eq.symm
    rw [hsort, hlen]
    have hpos : 0 < s.length := by
      rw [← hlen, List.length_map]; exact List.length_pos_iff.2 hne
    -- parity of the number of samples
    obtain ⟨q, hq⟩ : ∃ q, s.length = 2 * q + 1 ∨ s.length = 2 * q + 2 := ⟨(s.length - 1) / 2, by omega⟩
    unfold Quantile.lerpAt
    rcases hq with hq | hq
    · have hv : (1 / 2 : ℚ) * ((s.length : ℚ) - 1) = ((q : ℤ) : ℚ) := by rw [hq]; push_cast; ring
      simp only [hv, Int.floor_intCast, Int.toNat_natCast, sub_self, zero_mul, add_zero]
      have i1 : (s.length - 1) / 2 = q := by omega
      have i2 : s.length / 2 = q := by omega
      rw [i1, i2]; ring
    · have hv : (1 / 2 : ℚ) * ((s.length : ℚ) - 1) = (q : ℚ) + 1 / 2 := by rw [hq]; push_cast; ring
      have hfl : ⌊(q : ℚ) + 1 / 2⌋ = (q : ℤ) := by
        rw [Int.floor_eq_iff]; constructor <;> push_cast <;> linarith
      simp only [hv, hfl, Int.toNat_natCast]
      have i1 : (s.length - 1) / 2 = q := by omega
      have i2 : s.length / 2 = q + 1 := by omega
      have i3 : min (q + 1) (s.length - 1) = q + 1 := by omega
      rw [i1, i2, i3]; push_cast; ring
  · intro ht
    rcases (newAlphas_later dist cand n.t (by omega) (vals n.t g) (samples.getD n.t [])).2.2 _ _ hidx' with h5 | h5
    · left
      rw [hidx] at h5
      exact (Option.some.inj h5).symm
    · right; exact h5

/-- C196 (locality): the values of a step depend on the samples of that step only. -/
theorem C196_local (dist : Pt d → Pt d → ℚ) (cand : ℕ → ℕ → List (Pt d) → List (Pt d)) (samples samples' : List (List (Pt d))) (g g₁ g₂ : List (Node d E)) (D₁ D₂ : List (ℚ × ℚ))
    (h₁ : refine dist cand samples g = .ok (g₁, D₁)) (h₂ : refine dist cand samples' g = .ok (g₂, D₂)) (t : ℕ) (ht : samples[t]? = samples'[t]?) :
    Spec.valuesAt g₁ t = Spec.valuesAt g₂ t := by
  obtain ⟨a1, a2, a3, _⟩ := refine_run dist cand samples g g₁ D₁ h₁
  obtain ⟨b1, b2, b3, _⟩ := refine_run dist cand samples' g g₂ D₂ h₂
  rw [← vals_eq, ← vals_eq]
  by_cases hl : t < nSteps g
  · rw [a3 t hl, b3 t hl, List.getD_eq_getElem?_getD, List.getD_eq_getElem?_getD, ht]
  · have hno : vals t g = [] := by
      by_contra hc
      exact hl ((times_iff g (fun t ht => (a1 t ht).2.1) t).1 ((mem_vals_ne g t).1 hc))
    have c1 := same_count a2 t
    have c2 := same_count b2 t
    rw [hno] at c1 c2
    rw [List.length_eq_zero_iff.1 c1, List.length_eq_zero_iff.1 c2]

/-! ### The first step -/

theorem abs_up (l : List ℚ) (m a : ℚ) (h : m ≤ a) :
    (l.map (fun s => |s - m|)).sum + (a - m) * (2 * (l.countP (fun s => decide (s ≤ m)) : ℚ) - l.length) ≤ (l.map (fun s => |s - a|)).sum := by
  induction l with
  | nil => simp
  | cons s l ih =>
    simp only [List.map_cons, List.sum_cons, List.countP_cons, List.length_cons]
    by_cases hs : s ≤ m
    · simp only [hs, decide_true, if_true]
      push_cast
      have e1 : |s - m| = m - s := by rw [abs_of_nonpos (by linarith)]; ring
      have e2 : |s - a| = a - s := by rw [abs_of_nonpos (by linarith)]; ring
      rw [e1, e2]
      nlinarith [ih]
    · simp only [hs, decide_false, Bool.false_eq_true, if_false]
      push_cast
      have e1 : |s - m| ≤ |s - a| + (a - m) := by
        have := abs_sub_le s a m
        rwa [abs_of_nonneg (by linarith : (0 : ℚ) ≤ a - m)] at this
      nlinarith [ih]

theorem abs_down (l : List ℚ) (m a : ℚ) (h : a ≤ m) :
    (l.map (fun s => |s - m|)).sum + (m - a) * (2 * (l.countP (fun s => decide (m ≤ s)) : ℚ) - l.length) ≤ (l.map (fun s => |s - a|)).sum := by
  induction l with
  | nil => simp
  | cons s l ih =>
    simp only [List.map_cons, List.sum_cons, List.countP_cons, List.length_cons]
    by_cases hs : m ≤ s
    · simp only [hs, decide_true, if_true]
      push_cast
      have e1 : |s - m| = s - m := abs_of_nonneg (by linarith)
      have e2 : |s - a| = s - a := abs_of_nonneg (by linarith)
      rw [e1, e2]
      nlinarith [ih]
    · simp only [hs, decide_false, Bool.false_eq_true, if_false]
      push_cast
      have e1 : |s - m| ≤ |s - a| + (m - a) := by
        have := abs_sub_le s a m
        rwa [abs_of_nonpos (by linarith : a - m ≤ 0), neg_sub] at this
      nlinarith [ih]

theorem median_optimal (l : List ℚ) (hl : l ≠ []) (a : ℚ) : (l.map (fun s => |s - Quantile.quantileVal l (1 / 2)|)).sum ≤ (l.map (fun s => |s - a|)).sum := by
  obtain ⟨⟨q1, q2⟩, _⟩ := Quantile.C05_is_empirical_quantile l (1 / 2) hl (by norm_num) (by norm_num)
  set m := Quantile.quantileVal l (1 / 2) with hm
  have c1 : (l.length : ℚ) ≤ 2 * (l.countP (fun s => decide (s ≤ m)) : ℚ) := by
    have : (l.length : ℚ) < ((2 * l.countP (fun s => decide (s ≤ m)) + 1 : ℕ) : ℚ) := by push_cast; linarith
    have : l.length < 2 * l.countP (fun s => decide (s ≤ m)) + 1 := by exact_mod_cast this
    have : l.length ≤ 2 * l.countP (fun s => decide (s ≤ m)) := by omega
    exact_mod_cast this
  have c2 : (l.length : ℚ) ≤ 2 * (l.countP (fun s => decide (m ≤ s)) : ℚ) := by
    have : (l.length : ℚ) < ((2 * l.countP (fun s => decide (m ≤ s)) + 1 : ℕ) : ℚ) := by push_cast; linarith
    have : l.length < 2 * l.countP (fun s => decide (m ≤ s)) + 1 := by exact_mod_cast this
    have : l.length ≤ 2 * l.countP (fun s => decide (m ≤ s)) := by omega
    exact_mod_cast this
  rcases le_total m a with h | h
  · have := abs_up l m a h
    have h2 := mul_nonneg (by linarith : (0 : ℚ) ≤ a - m) (by linarith : (0 : ℚ) ≤ 2 * (l.countP (fun s => decide (s ≤ m)) : ℚ) - l.length)
    linarith
  · have := abs_down l m a h
    have h2 := mul_nonneg (by linarith : (0 : ℚ) ≤ m - a) (by linarith : (0 : ℚ) ≤ 2 * (l.countP (fun s => decide (m ≤ s)) : ℚ) - l.length)
    linarith

theorem sum_swap (S : List (Pt d)) (f : Pt d → Fin d → ℚ) : (S.map (fun s => ∑ j, f s j)).sum = ∑ j, (S.map (fun s => f s j)).sum := by
  induction S with
  | nil => simp
  | cons s S ih => simp only [List.map_cons, List.sum_cons, ih, Finset.sum_add_distrib]

theorem city_single (S : List (Pt d)) (a : Pt d) : setDistance Spec.cityblock [a] S = ∑ j, ((S.map (fun s => s j)).map (fun x => |x - a j|)).sum := by
  have : setDistance Spec.cityblock [a] S = (S.map (fun s => ∑ j, |s j - a j|)).sum := rfl
  rw [this, sum_swap]
  refine Finset.sum_congr rfl (fun j _ => ?_)
  rw [List.map_map]; rfl

/-- C197: with the cityblock metric (for one variable, also the euclidean one) no step gets worse: the distances never increase. -/
theorem C197_cityblock (cand : ℕ → ℕ → List (Pt d) → List (Pt d)) (samples : List (List (Pt d))) (hne : ∀ S ∈ samples, S ≠ []) (g g' : List (Node d E)) (D : List (ℚ × ℚ))
    (h : refine Spec.cityblock cand samples g = .ok (g', D)) (t : ℕ) (x y : ℚ) (hD : D[t]? = some (x, y)) : y ≤ x := by
  obtain ⟨h1, h2, h3, h4⟩ := refine_run _ cand samples g g' D h
  have hlen : D.length = nSteps g := by rw [h4]; simp
  have ht : t < nSteps g := by
    by_contra hc
    rw [List.getElem?_eq_none (by omega)] at hD; cases hD
  rw [h4, List.getElem?_map, List.getElem?_range ht] at hD
  simp only [Option.map_some, Option.some.injEq, Prod.mk.injEq] at hD
  obtain ⟨rfl, rfl⟩ := hD
  rw [h3 t ht]
  by_cases h0 : t = 0
  · subst h0
    obtain ⟨hs1, hs2, hs3⟩ := h1 0 ht
    obtain ⟨a, ha⟩ := List.length_eq_one_iff.1 (hs3 rfl)
    have hS : samples.getD 0 [] ≠ [] := by
      refine hne _ ?_
      rw [List.getD_eq_getElem?_getD, List.getElem?_eq_getElem hs1]
      exact List.getElem_mem hs1
    unfold newAlphas
    rw [if_pos rfl, ha, city_single, city_single]
    refine Finset.sum_le_sum (fun j _ => ?_)
    exact median_optimal _ (by simpa using hS) (a j)
  · exact (newAlphas_later _ cand t h0 _ _).2.1

/-! ### When it runs -/

/-- C198 (exact): the refinement succeeds iff the times of the nodes are `0, ..., T-1`, there are samples for each of these steps, and there is one node at step 0. -/
theorem C198_ok_iff (dist : Pt d → Pt d → ℚ) (cand : ℕ → ℕ → List (Pt d) → List (Pt d)) (samples : List (List (Pt d))) (g : List (Node d E)) :
    (∃ r, refine dist cand samples g = .ok r) ↔ ∃ T, T ≤ samples.length ∧ (∀ t, (∃ n ∈ g, n.t = t) ↔ t < T) ∧ (g ≠ [] → (Spec.valuesAt g 0).length = 1) := by
  have hspec := loop_spec dist cand samples g (List.range (nSteps g)) List.nodup_range g (same_refl g) []
  have hiff : (∃ r, refine dist cand samples g = .ok r) ↔ ∀ t, t < nSteps g → StepOk samples g t := by
    constructor
    · rintro ⟨⟨g', D⟩, hr⟩
      exact (refine_run dist cand samples g g' D hr).1
    · intro h
      obtain ⟨gn', l1, _⟩ := hspec.1 (fun t ht => h t (List.mem_range.1 ht))
      unfold refine
      rw [l1]
      exact ⟨_, rfl⟩
  rw [hiff]
  constructor
  · intro h
    refine ⟨nSteps g, ?_, times_iff g (fun t ht => (h t ht).2.1), ?_⟩
    · by_contra hc
      have := (h samples.length (by omega)).1
      omega
    · intro hg
      have hpos : 0 < nSteps g := by
        obtain ⟨n, hn⟩ := List.exists_mem_of_ne_nil g hg
        have := (times_iff g (fun t ht => (h t ht).2.1) n.t).1 ⟨n, hn, rfl⟩
        omega
      rw [← vals_eq]
      exact (h 0 hpos).2.2 rfl
  · rintro ⟨T, h1, h2, h3⟩ t ht
    have hT : nSteps g = T := by
      rw [nSteps_eq]
      have : (g.map (·.t)).toFinset = Finset.range T := by
        ext t
        rw [List.mem_toFinset, Finset.mem_range, ← h2 t, List.mem_map]
      rw [this, Finset.card_range]
    rw [hT] at ht
    refine ⟨by omega, (mem_vals_ne g t).2 ((h2 t).2 ht), ?_⟩
    rintro rfl
    rw [vals_eq]
    refine h3 ?_
    rintro rfl
    obtain ⟨n, hn, _⟩ := (h2 0).2 ht
    cases hn

/-- C198 (defect): a forest, two or more nodes at the first step, raises `IndexError`: the first step always becomes a single point. -/
theorem C198_several_roots (dist : Pt d → Pt d → ℚ) (cand : ℕ → ℕ → List (Pt d) → List (Pt d)) (samples : List (List (Pt d))) (g : List (Node d E)) (h : 2 ≤ (Spec.valuesAt g 0).length) :
    refine dist cand samples g = .error .indexError := by
  rw [← vals_eq] at h
  have hv : vals 0 g ≠ [] := by intro hc; rw [hc] at h; simp at h
  have hpos : 0 < nSteps g := by
    obtain ⟨n, hn, hnt⟩ := (mem_vals_ne g 0).1 hv
    rw [nSteps_eq]
    refine Finset.card_pos.2 ⟨0, ?_⟩
    rw [List.mem_toFinset]; exact List.mem_map.2 ⟨n, hn, hnt⟩
  have hr : List.range (nSteps g) = 0 :: (List.range (nSteps g - 1)).map Nat.succ := by
    have : nSteps g = (nSteps g - 1) + 1 := by omega
    rw [this, List.range_succ_eq_map]; rfl
  have hl : loop dist cand samples g (List.range (nSteps g)) g [] = .error .indexError := by
    rw [hr]
    unfold loop
    cases hS : samples[0]? with
    | none => rfl
    | some S =>
      simp only [if_neg hv]
      rw [(write_spec 0 g (newAlphas dist cand 0 (vals 0 g) S)).2 (by rw [newAlphas_length, if_pos rfl]; omega)]
  unfold refine
  rw [hl]

end PyF.Refine
