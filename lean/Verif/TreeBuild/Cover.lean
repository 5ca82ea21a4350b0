import Verif.TreeBuild.Props
import Mathlib.Order.WellFounded

namespace PyF.TreeBuild
open PyF Scenred

variable {m : Nat} {V : Type}

theorem quantile_zero_le {l : List ℚ} {x : ℚ} (hx : x ∈ l) : Quantile.quantileVal l 0 ≤ x := by
  have hne := List.ne_nil_of_mem hx
  have h := (Quantile.quantileVal_isEmpirical hne (le_refl 0) (by norm_num)).2
  have h1 : l.countP (fun e => decide (Quantile.quantileVal l 0 ≤ e)) = l.length := by
    have h2 : l.countP (fun e => decide (Quantile.quantileVal l 0 ≤ e)) ≤ l.length := List.countP_le_length
    have h3 : ((l.length : ℚ) - 1) < (l.countP (fun e => decide (Quantile.quantileVal l 0 ≤ e)) : ℚ) := by linarith
    have h4 : (l.length : ℚ) < (l.countP (fun e => decide (Quantile.quantileVal l 0 ≤ e)) : ℚ) + 1 := by linarith
    have h5 : l.length < l.countP (fun e => decide (Quantile.quantileVal l 0 ≤ e)) + 1 := by exact_mod_cast h4
    omega
  rw [List.countP_eq_length] at h1
  simpa using h1 x hx

theorem le_quantile_one {l : List ℚ} {x : ℚ} (hx : x ∈ l) : x ≤ Quantile.quantileVal l 1 := by
  have hne := List.ne_nil_of_mem hx
  have h := (Quantile.quantileVal_isEmpirical hne (by norm_num) (le_refl 1)).1
  have h1 : l.countP (fun e => decide (e ≤ Quantile.quantileVal l 1)) = l.length := by
    have h2 : l.countP (fun e => decide (e ≤ Quantile.quantileVal l 1)) ≤ l.length := List.countP_le_length
    have h4 : (l.length : ℚ) < (l.countP (fun e => decide (e ≤ Quantile.quantileVal l 1)) : ℚ) + 1 := by linarith
    have h5 : l.length < l.countP (fun e => decide (e ≤ Quantile.quantileVal l 1)) + 1 := by exact_mod_cast h4
    omega
  rw [List.countP_eq_length] at h1
  simpa using h1 x hx

theorem childFilter_subset (next : Fin m → ℚ) (fj : List (Fin m)) (lo hi : ℚ) : ∀ s ∈ childFilter next fj lo hi, s ∈ fj := by
  unfold childFilter
  simp only
  split
  · exact fun s h => h
  · intro s h; exact (List.mem_filter.1 h).1

theorem mem_childFilter (next : Fin m → ℚ) (fj : List (Fin m)) (lo hi : ℚ) (s : Fin m) (hs : s ∈ fj) (h1 : lo - 1 / 1000000 < next s) (h2 : next s ≤ hi) :
    s ∈ childFilter next fj lo hi := by
  unfold childFilter
  simp only
  split
  · exact hs
  · exact List.mem_filter.2 ⟨hs, by rw [decide_eq_true h1, decide_eq_true h2]; rfl⟩

/-- Some bin between consecutive quantiles contains the value. -/
theorem bin_exists (next : Fin m → ℚ) (fj : List (Fin m)) (c : Nat) (hc : 1 ≤ c) (s : Fin m) (hs : s ∈ fj) :
    ∃ i, i < c ∧ s ∈ childFilter next fj (Quantile.quantileVal (fj.map next) ((i : ℚ) / c)) (Quantile.quantileVal (fj.map next) (((i : ℚ) + 1) / c)) := by
  have hmem : next s ∈ fj.map next := List.mem_map.2 ⟨s, hs, rfl⟩
  have hcq : (c : ℚ) ≠ 0 := by exact_mod_cast (by omega : c ≠ 0)
  have hex : ∃ i, i < c ∧ next s ≤ Quantile.quantileVal (fj.map next) (((i : ℚ) + 1) / c) := by
    refine ⟨c - 1, by omega, ?_⟩
    have : (((c - 1 : Nat) : ℚ) + 1) / c = 1 := by
      rw [Nat.cast_sub hc]; field_simp; norm_num
    rw [this]
    exact le_quantile_one hmem
  classical
  obtain ⟨h1, h2⟩ := Nat.find_spec hex
  refine ⟨Nat.find hex, h1, mem_childFilter _ _ _ _ _ hs ?_ h2⟩
  rcases Nat.eq_zero_or_pos (Nat.find hex) with h0 | h0
  · rw [h0]
    have := quantile_zero_le hmem
    simp only [Nat.cast_zero, zero_div]
    linarith
  · have hmin := Nat.find_min hex (m := Nat.find hex - 1) (by omega)
    have hlt : ¬ next s ≤ Quantile.quantileVal (fj.map next) ((((Nat.find hex - 1 : Nat) : ℚ) + 1) / c) := fun h => hmin ⟨by omega, h⟩
    rw [Nat.cast_sub (by omega)] at hlt
    have he : ((Nat.find hex : ℚ) - ((1 : Nat) : ℚ) + 1) / c = (Nat.find hex : ℚ) / c := by norm_num
    rw [he] at hlt
    linarith [not_le.1 hlt]

/-- The finished nodes: the scenarios of a node are those of its children, whose values are quantiles over them. -/
def Done (N : List (Node V)) (scens : Nat → Fin m → ℚ) (st : IV m) (j : Nat) (y : Node V) : Prop :=
  ∃ fj, st.filters j = some fj ∧ fj ≠ [] ∧
    (∀ i k, (childrenOf N j).findIdx? (· == k) = some i → ∃ fk, st.filters k = some fk ∧ fk ≠ [] ∧ (∀ s ∈ fk, s ∈ fj) ∧
      st.vals k = some (Quantile.quantileVal (fj.map (scens y.t)) ((i + 1) / ((childrenOf N j).length + 1)))) ∧
    (childrenOf N j ≠ [] → ∀ s ∈ fj, ∃ k ∈ childrenOf N j, ∃ fk, st.filters k = some fk ∧ s ∈ fk)

theorem mem_childrenOf {N : List (Node V)} {j k : Nat} : k ∈ childrenOf N j ↔ ∃ z, N[k]? = some z ∧ z.parent = some j := by
  unfold childrenOf
  rw [List.mem_filter, List.mem_range]
  constructor
  · rintro ⟨hk, hp⟩
    rw [List.getElem?_eq_getElem hk] at hp ⊢
    exact ⟨_, rfl, by simpa using hp⟩
  · rintro ⟨z, hz, hp⟩
    refine ⟨(List.getElem?_eq_some_iff.1 hz).1, ?_⟩
    rw [hz]
    simp [hp]

theorem childrenOf_sorted (N : List (Node V)) (j : Nat) : (childrenOf N j).Pairwise (· < ·) := by
  unfold childrenOf
  exact List.Pairwise.filter _ List.pairwise_lt_range

theorem findIdx?_getElem {N : List (Node V)} {j i k : Nat} (hi : (childrenOf N j)[i]? = some k) : (childrenOf N j).findIdx? (· == k) = some i := by
  rw [List.findIdx?_eq_some_iff_getElem]
  obtain ⟨hl, he⟩ := List.getElem?_eq_some_iff.1 hi
  refine ⟨hl, by simp [he], ?_⟩
  intro a ha
  have := (List.pairwise_iff_getElem.1 (childrenOf_sorted N j)) a i (by omega) hl ha
  simp only [Bool.not_eq_true, beq_eq_false_iff_ne]
  omega

theorem findIdx?_none_of_not_mem {N : List (Node V)} {j k : Nat} (h : k ∉ childrenOf N j) : (childrenOf N j).findIdx? (· == k) = none := by
  rw [List.findIdx?_eq_none_iff]
  intro x hx
  simp only [beq_eq_false_iff_ne]
  rintro rfl
  exact h hx

/-- One visit: it finishes `j` and does not touch other nodes than the children of `j`. -/
theorem visit_done {N : List (Node V)} (hwf : WF N) (scens : Nat → Fin m → ℚ) (t : Nat) (st : IV m) (j : Nat) (y : Node V) (hjt : y.t = t)
    (fj : List (Fin m)) (hf : st.filters j = some fj) (hne : fj ≠ []) :
    ∃ st', visit N scens t st j = .ok st' ∧ Done N scens st' j y ∧ (∀ k, k ∉ childrenOf N j → st'.filters k = st.filters k ∧ st'.vals k = st.vals k) := by
  have hself : j ∉ childrenOf N j := by
    intro h
    obtain ⟨z, hz, hp⟩ := mem_childrenOf.1 h
    rcases hwf j z hz with ⟨_, h1, _⟩ | ⟨p, w, h1, h2, _⟩
    · rw [h1] at hp; cases hp
    · rw [h1] at hp; cases hp; omega
  unfold visit
  rw [hf]
  refine ⟨_, rfl, ⟨fj, ?_, hne, ?_, ?_⟩, ?_⟩
  · simp only; rw [findIdx?_none_of_not_mem hself]; exact hf
  · intro i k hk
    simp only [hk]
    refine ⟨_, rfl, childFilter_ne hne _ _, childFilter_subset _ _ _ _, ?_⟩
    rw [hjt]
  · intro hch s hs
    obtain ⟨i, hi, hm⟩ := bin_exists (scens (t + 1)) fj (childrenOf N j).length (List.length_pos_iff.2 hch) s hs
    refine ⟨(childrenOf N j)[i], List.getElem_mem hi, _, ?_, hm⟩
    simp only
    rw [findIdx?_getElem (List.getElem?_eq_getElem hi)]
  · intro k hk
    simp only
    rw [findIdx?_none_of_not_mem hk]
    exact ⟨rfl, rfl⟩

theorem Done.frame {N : List (Node V)} {scens : Nat → Fin m → ℚ} {st st' : IV m} {j j' : Nat} {y' : Node V} (hne : j' ≠ j) (hp : j' ∉ childrenOf N j)
    (hfr : ∀ k, k ∉ childrenOf N j → st'.filters k = st.filters k ∧ st'.vals k = st.vals k) (h : Done N scens st j' y') : Done N scens st' j' y' := by
  have hch : ∀ k ∈ childrenOf N j', k ∉ childrenOf N j := by
    intro k h1 h2
    obtain ⟨z, hz, hp1⟩ := mem_childrenOf.1 h1
    obtain ⟨z', hz', hp2⟩ := mem_childrenOf.1 h2
    rw [hz] at hz'
    cases hz'
    rw [hp1] at hp2
    exact hne (Option.some.inj hp2)
  obtain ⟨fj, h1, h2, h3, h4⟩ := h
  refine ⟨fj, by rw [(hfr j' hp).1]; exact h1, h2, ?_, ?_⟩
  · intro i k hk
    obtain ⟨x, hx, hpar, _⟩ := findIdx?_childrenOf hk
    have hkn := hch k (mem_childrenOf.2 ⟨x, hx, hpar⟩)
    obtain ⟨fk, a, b, c, d⟩ := h3 i k hk
    exact ⟨fk, by rw [(hfr k hkn).1]; exact a, b, c, by rw [(hfr k hkn).2]; exact d⟩
  · intro hc s hs
    obtain ⟨k, hk, fk, a, b⟩ := h4 hc s hs
    exact ⟨k, hk, fk, by rw [(hfr k (hch k hk)).1]; exact a, b⟩

theorem not_child_of_same_time {N : List (Node V)} (hwf : WF N) {j j' : Nat} {y y' : Node V} (hj : N[j]? = some y) (hj' : N[j']? = some y') (h : y'.t ≤ y.t) : j' ∉ childrenOf N j := by
  intro hm
  obtain ⟨z, hz, hp⟩ := mem_childrenOf.1 hm
  rw [hj'] at hz
  cases hz
  rcases hwf j' y' hj' with ⟨_, h1, _⟩ | ⟨p, w, h1, _, h3, h4⟩
  · rw [h1] at hp; cases hp
  · rw [h1] at hp
    cases hp
    rw [hj] at h3
    cases h3
    omega

theorem visitAll_done {N : List (Node V)} (hwf : WF N) (scens : Nat → Fin m → ℚ) (t : Nat) (js : List Nat) (hn : js.Nodup) (hjs : ∀ j ∈ js, ∃ y, N[j]? = some y ∧ y.t = t) : ∀ st : IV m,
    (∀ j ∈ js, ∃ fj, st.filters j = some fj ∧ fj ≠ []) →
    ∃ st', visitAll N scens t st js = .ok st' ∧ (∀ (j : Nat) (y : Node V), j ∈ js → N[j]? = some y → Done N scens st' j y) ∧
      (∀ (j : Nat) (y : Node V), N[j]? = some y → y.t ≤ t → st'.filters j = st.filters j ∧ st'.vals j = st.vals j) ∧
      (∀ (j : Nat) (y : Node V), N[j]? = some y → y.t ≤ t → j ∉ js → Done N scens st j y → Done N scens st' j y) := by
  induction js with
  | nil =>
    intro st _
    exact ⟨st, rfl, fun j y hj => absurd hj List.not_mem_nil, fun _ _ _ _ => ⟨rfl, rfl⟩, fun _ _ _ _ _ h => h⟩
  | cons j js ih =>
    intro st hfilt
    have hn' := List.nodup_cons.1 hn
    obtain ⟨y, hy, hyt⟩ := hjs j List.mem_cons_self
    obtain ⟨fj, hfj, hne⟩ := hfilt j List.mem_cons_self
    obtain ⟨a, h1, h2, h3⟩ := visit_done hwf scens t st j y hyt fj hfj hne
    have hnc : ∀ (j' : Nat) (y' : Node V), N[j']? = some y' → y'.t ≤ t → j' ∉ childrenOf N j := fun j' y' hj' ht => not_child_of_same_time hwf hy hj' (by omega)
    obtain ⟨b, h4, h5, h6, h7⟩ := ih hn'.2 (fun j hj => hjs j (List.mem_cons_of_mem _ hj)) a (by
      intro j' hj'
      obtain ⟨y', hy', hyt'⟩ := hjs j' (List.mem_cons_of_mem _ hj')
      rw [(h3 j' (hnc j' y' hy' (by omega))).1]
      exact hfilt j' (List.mem_cons_of_mem _ hj'))
    refine ⟨b, ?_, ?_, ?_, ?_⟩
    · simp only [visitAll]; rw [h1]; exact h4
    · intro j' y' hm hj'
      rcases List.mem_cons.1 hm with rfl | hm
      · rw [hy] at hj'
        cases hj'
        exact h7 j' y hy (by omega) hn'.1 h2
      · exact h5 j' y' hm hj'
    · intro j' y' hj' ht
      obtain ⟨e1, e2⟩ := h6 j' y' hj' ht
      obtain ⟨e3, e4⟩ := h3 j' (hnc j' y' hj' ht)
      exact ⟨e1.trans e3, e2.trans e4⟩
    · intro j' y' hj' ht hnot hd
      rw [List.mem_cons, not_or] at hnot
      exact h7 j' y' hj' ht hnot.2 (Done.frame hnot.1 (hnc j' y' hj' ht) h3 hd)

theorem times_done {N : List (Node V)} (hwf : WF N) (hm : 1 ≤ m) (scens : Nat → Fin m → ℚ) (k : Nat) :
    ∃ st, times N scens k = .ok st ∧ st.filters 0 = some (List.finRange m) ∧ st.vals 0 = some (Quantile.quantileVal ((List.finRange m).map (scens 0)) (1 / 2)) ∧
      (∀ (j : Nat) (y : Node V), N[j]? = some y → y.t ≤ k → ∃ fj, st.filters j = some fj ∧ fj ≠ []) ∧
      (∀ (j : Nat) (y : Node V), N[j]? = some y → y.t < k → Done N scens st j y) := by
  induction k with
  | zero =>
    refine ⟨_, rfl, rfl, rfl, ?_, fun j y _ h => absurd h (Nat.not_lt_zero _)⟩
    intro j y hj hy
    rcases hwf j y hj with ⟨h0, _, _⟩ | ⟨_, _, _, _, _, h4⟩
    · subst h0
      refine ⟨_, rfl, ?_⟩
      intro he
      have := congrArg List.length he
      simp at this
      omega
    · omega
  | succ k ih =>
    obtain ⟨a, h1, h2, h3, h4, h5⟩ := ih
    obtain ⟨b, g1, g2, g3, g4⟩ := visitAll_done hwf scens k (nodesAtTime N k) (by unfold nodesAtTime; exact List.Nodup.filter _ List.nodup_range)
      (fun j hj => mem_nodesAtTime hj) a (by
        intro j hj
        obtain ⟨y, hy, hyt⟩ := mem_nodesAtTime hj
        exact h4 j y hy (by omega))
    have hmem : ∀ (j : Nat) (y : Node V), N[j]? = some y → y.t = k → j ∈ nodesAtTime N k := by
      intro j y hj hy
      unfold nodesAtTime
      rw [List.mem_filter, List.mem_range]
      refine ⟨(List.getElem?_eq_some_iff.1 hj).1, ?_⟩
      rw [hj]
      simpa using hy
    have hdone : ∀ (j : Nat) (y : Node V), N[j]? = some y → y.t < k + 1 → Done N scens b j y := by
      intro j y hj hy
      rcases Nat.lt_or_eq_of_le (Nat.le_of_lt_succ hy) with hlt | heq
      · refine g4 j y hj (by omega) ?_ (h5 j y hj hlt)
        intro hin
        obtain ⟨y', hy', ht⟩ := mem_nodesAtTime hin
        rw [hj] at hy'
        cases hy'
        omega
      · exact g2 j y (hmem j y hj heq) hj
    have hroot : b.filters 0 = a.filters 0 ∧ b.vals 0 = a.vals 0 := by
      cases hN : N[0]? with
      | some y =>
        refine g3 0 y hN ?_
        rcases hwf 0 y hN with ⟨_, _, h0⟩ | ⟨_, _, _, h2, _⟩
        · omega
        · omega
      | none =>
        have hnil : N = [] := by
          cases N with
          | nil => rfl
          | cons => simp at hN
        subst hnil
        simp only [nodesAtTime, List.length_nil, List.range_zero, List.filter_nil, visitAll, Except.ok.injEq] at g1
        rw [← g1]
        exact ⟨rfl, rfl⟩
    refine ⟨b, ?_, by rw [hroot.1]; exact h2, by rw [hroot.2]; exact h3, ?_, hdone⟩
    · simp only [times]; rw [h1]; exact g1
    · intro j y hj hy
      rcases Nat.lt_or_eq_of_le hy with hlt | heq
      · obtain ⟨fj, e1, e2, _⟩ := hdone j y hj (by omega)
        exact ⟨fj, e1, e2⟩
      · rcases hwf j y hj with ⟨_, _, h0⟩ | ⟨p, z, hp, _, hz, hzt⟩
        · omega
        · obtain ⟨fp, _, _, e3, _⟩ := hdone p z hz (by omega)
          obtain ⟨i, hi⟩ := List.mem_iff_getElem?.1 (mem_childrenOf.2 ⟨y, hj, hp⟩)
          obtain ⟨fk, e4, e5, _⟩ := e3 i j (findIdx?_getElem hi)
          exact ⟨fk, e4, e5⟩

/-- C53 (no scenario dropped): the scenarios are distributed down the tree. The root has all of them; each set is non-empty; every scenario
of a node that has children belongs to one of them, and children have no other; and the values of the children are the quantiles,
one step late, over exactly these sets. -/
theorem C53_no_scenario_dropped (N : List (Node ℚ)) (hwf : WF N) (hm : 1 ≤ m) (T : Nat) (scens : Nat → Fin m → ℚ) :
    ∃ (vs : List ℚ) (F : Nat → List (Fin m)), initVals N T scens = .ok vs ∧ F 0 = List.finRange m ∧
      ∀ (j : Nat) (x : Node ℚ), N[j]? = some x → x.t + 1 < T → F j ≠ [] ∧ ∀ ch : List Nat, ch.Pairwise (· < ·) → (∀ k, k ∈ ch ↔ ∃ z, N[k]? = some z ∧ z.parent = some j) →
        (∀ k ∈ ch, ∀ s ∈ F k, s ∈ F j) ∧ (ch ≠ [] → ∀ s ∈ F j, ∃ k ∈ ch, s ∈ F k) ∧
        ∀ (i k : Nat), ch[i]? = some k → vs[k]? = some (Quantile.quantileVal ((F j).map (scens x.t)) ((i + 1) / (ch.length + 1))) := by
  obtain ⟨st, h1, h2, _, _, h5⟩ := times_done (N := N) hwf hm scens (T - 1)
  refine ⟨_, fun j => (st.filters j).getD [], by unfold initVals; rw [h1], by simp only; rw [h2]; rfl, ?_⟩
  intro j x hj hx
  obtain ⟨fj, e1, e2, e3, e4⟩ := h5 j x hj (by omega)
  simp only [e1, Option.getD_some]
  refine ⟨e2, ?_⟩
  intro ch hs hmem
  have hch : ch = childrenOf N j := by
    apply List.Perm.eq_of_pairwise (le := (· < ·)) (fun a b _ _ h1 h2 => by omega) hs (childrenOf_sorted N j)
    rw [List.perm_ext_iff_of_nodup (hs.imp (fun h => by omega)) ((childrenOf_sorted N j).imp (fun h => by omega))]
    intro k
    rw [hmem, mem_childrenOf]
  subst hch
  refine ⟨?_, ?_, ?_⟩
  · intro k hk s hsk
    obtain ⟨i, hi⟩ := List.mem_iff_getElem?.1 hk
    obtain ⟨fk, a, _, c, _⟩ := e3 i k (findIdx?_getElem hi)
    rw [a] at hsk
    exact c s hsk
  · intro hne s hsj
    obtain ⟨k, hk, fk, a, b⟩ := e4 hne s hsj
    exact ⟨k, hk, by rw [a]; exact b⟩
  · intro i k hi
    obtain ⟨fk, _, _, _, d⟩ := e3 i k (findIdx?_getElem hi)
    obtain ⟨z, hz, _⟩ := mem_childrenOf.1 (List.mem_of_getElem? hi)
    rw [List.getElem?_map, List.getElem?_zipIdx, hz]
    simp only [Option.map_some, Nat.zero_add, d, Option.getD_some]

end PyF.TreeBuild
