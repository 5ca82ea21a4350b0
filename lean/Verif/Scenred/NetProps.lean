import Verif.Scenred.Network
import Mathlib.Tactic.Tauto

namespace PyF.Scenred
open PyF

variable {n : Nat} {V : Type} [DecidableEq V]

/-- The values of the surviving scenarios at step `t` are pairwise different. -/
def Distinct (c : Cfg n) (S0 : Nat → Fin n → V) (t : Nat) : Prop :=
  ∀ a b, (row c S0 t).alive a = true → (row c S0 t).alive b = true → S0 t a = S0 t b → a = b

/-- C49: the network is built if and only if one scenario survives at the first step; otherwise the assertion fails. No other
error can occur. -/
theorem C49_built_iff_single_root (c : Cfg n) (S0 : Nat → Fin n → V) (g : Good c) (hT : 1 ≤ c.T) :
    ((∃ N, network c S0 = .ok N) ↔ ∃ a, ∀ b, (row c S0 0).alive b = true ↔ b = a) ∧
      ∀ e, network c S0 = .error e → e = .assertionError := by
  have hiff : (∃ a, ∀ b, (row c S0 0).alive b = true ↔ b = a) ↔ count c S0 0 = 1 := by
    unfold count aliveSet
    rw [Finset.card_eq_one]
    constructor
    · rintro ⟨a, h⟩
      exact ⟨a, by ext b; simp [h b]⟩
    · rintro ⟨a, h⟩
      refine ⟨a, fun b => ?_⟩
      have : b ∈ Finset.univ.filter (fun k => (row c S0 0).alive k = true) ↔ b ∈ ({a} : Finset (Fin n)) := by rw [h]
      simpa using this
  rw [hiff]
  by_cases h : count c S0 0 = 1
  · obtain ⟨a, N, _, hN, _⟩ := network_tree c S0 g hT h
    refine ⟨⟨fun _ => h, fun _ => ⟨N, hN⟩⟩, ?_⟩
    intro e he
    rw [hN] at he
    cases he
  · have he := network_error c S0 g hT h
    refine ⟨⟨?_, fun h' => absurd h' h⟩, ?_⟩
    · rintro ⟨N, hN⟩
      rw [he] at hN
      cases hN
    · intro e h'
      rw [he] at h'
      cases h'
      rfl

theorem network_ok_count (c : Cfg n) (S0 : Nat → Fin n → V) (g : Good c) (hT : 1 ≤ c.T) {N : List (Node V)} (hN : network c S0 = .ok N) :
    count c S0 0 = 1 := by
  by_contra h
  rw [network_error c S0 g hT h] at hN
  cases hN

theorem firsts_congr {σ : Type} (f h : σ → V) (l : List σ) (he : ∀ s ∈ l, f s = h s) : firsts f l = firsts h l := by
  induction l with
  | nil => rfl
  | cons a ss ih =>
    simp only [firsts]
    rw [ih (fun s hs => he s (List.mem_cons_of_mem _ hs))]
    congr 1
    apply List.filter_congr
    intro x hx
    rw [he x (List.mem_cons_of_mem _ ((firsts_sub h ss).subset hx)), he a List.mem_cons_self]

/-- C49 (content): level `t ≥ 1` of the network has one node per different value of the surviving scenarios, in order of first
occurrence, with the probability of the first scenario of that value only; its parent is a node of the step before
carrying the reduced value of that scenario, i.e. the value of its representative. The root has
probability 1 and the value of the only survivor. -/
theorem C49_levels (c : Cfg n) (S0 : Nat → Fin n → V) (g : Good c) (hT : 1 ≤ c.T) (N : List (Node V)) (hN : network c S0 = .ok N) :
    (∃ a, (row c S0 0).alive a = true ∧ N[0]? = some { t := 0, p := 1, v := S0 0 a, parent := none } ∧
      N.filter (fun x => x.t == 0) = [{ t := 0, p := 1, v := S0 0 a, parent := none }]) ∧
    (∀ x ∈ N, x.t < c.T) ∧ N.Pairwise (fun a b => a.t ≤ b.t) ∧
    ∀ t, 1 ≤ t → t < c.T → ∃ par : Fin n → Nat,
      N.filter (fun x => x.t == t) =
        (firsts (S0 t) ((List.finRange n).filter (row c S0 t).alive)).map (fun s => { t := t, p := (row c S0 t).P s, v := S0 t s, parent := some (par s) }) ∧
      ∀ s, (row c S0 t).alive s = true → ∃ x, N[par s]? = some x ∧ x.t = t - 1 ∧ x.v = finalS c S0 (t - 1) s := by
  obtain ⟨a, N', ha, hN', hTr⟩ := network_tree c S0 g hT (network_ok_count c S0 g hT hN)
  rw [hN] at hN'
  cases hN'
  obtain ⟨own, ho⟩ := C48_reduction_is_a_tree c S0 g
  have haa : (row c S0 0).alive a = true := by
    have : a ∈ alive c S0 0 := by rw [ha]; exact List.mem_singleton_self _
    exact (List.mem_filter.1 this).2
  refine ⟨⟨a, haa, hTr.head, hTr.level0⟩, fun x hx => by have := hTr.times x hx; omega, hTr.sorted, ?_⟩
  intro t h1 h2
  obtain ⟨par, he, hp⟩ := hTr.level t h1 (by omega)
  rw [present_eq c S0 g t h2] at he hp
  have hself : ∀ s ∈ alive c S0 t, finalS c S0 t s = S0 t s := by
    intro s hs
    rw [(ho t h2).2.2.2.2.2 s, (ho t h2).2.1 s (List.mem_filter.1 hs).2]
  refine ⟨par, ?_, ?_⟩
  · rw [he, firsts_congr _ _ _ hself]
    apply List.map_congr_left
    intro s hs
    rw [hself s ((firsts_sub _ _).subset hs)]
  · intro s hs
    exact hp s (List.mem_filter.2 ⟨List.mem_finRange s, hs⟩)

omit [DecidableEq V] in
theorem sum_alive (c : Cfg n) (S0 : Nat → Fin n → V) (g : Good c) (hn : 1 ≤ n) (t : Nat) (ht : t < c.T) :
    (((List.finRange n).filter (row c S0 t).alive).map (row c S0 t).P).sum = 1 := by
  obtain ⟨_, hz, hs, _⟩ := C46_probability c S0 g hn t ht
  rw [← hs, ← List.sum_toFinset _ ((List.nodup_finRange n).filter _)]
  apply Finset.sum_subset (Finset.subset_univ _)
  intro a _ ha
  apply hz
  by_contra hal
  apply ha
  have : (row c S0 t).alive a = true := by simpa using hal
  simp [this]

theorem sum_sublist_lt {σ : Type} (P : σ → ℚ) {l m : List σ} (h : l.Sublist m) (hp : ∀ s ∈ m, 0 < P s) :
    (l.map P).sum ≤ (m.map P).sum ∧ ((l.map P).sum = (m.map P).sum → l = m) := by
  induction h with
  | slnil => simp
  | @cons l m a hs ih =>
    obtain ⟨h1, h2⟩ := ih (fun s hs => hp s (List.mem_cons_of_mem _ hs))
    have ha := hp a List.mem_cons_self
    simp only [List.map_cons, List.sum_cons]
    exact ⟨by linarith, fun h => by linarith⟩
  | @cons_cons l m a hs ih =>
    obtain ⟨h1, h2⟩ := ih (fun s hs => hp s (List.mem_cons_of_mem _ hs))
    simp only [List.map_cons, List.sum_cons]
    exact ⟨by linarith, fun h => by rw [h2 (by linarith)]⟩

theorem getElem?_pairwise {α : Type} {R : α → α → Prop} (hsymm : ∀ a b, R a b → R b a) {l : List α} (h : l.Pairwise R) {i j : Nat} {x y : α}
    (hi : l[i]? = some x) (hj : l[j]? = some y) (hne : i ≠ j) : R x y := by
  rw [List.pairwise_iff_getElem] at h
  obtain ⟨hi', rfl⟩ := List.getElem?_eq_some_iff.1 hi
  obtain ⟨hj', rfl⟩ := List.getElem?_eq_some_iff.1 hj
  rcases Nat.lt_or_gt_of_ne hne with hlt | hlt
  · exact h i j hi' hj' hlt
  · exact hsymm _ _ (h j i hj' hi' hlt)

theorem distinct_iff (c : Cfg n) (S0 : Nat → Fin n → V) (t : Nat) :
    Distinct c S0 t ↔ firsts (S0 t) ((List.finRange n).filter (row c S0 t).alive) = (List.finRange n).filter (row c S0 t).alive := by
  constructor
  · intro h
    apply firsts_id
    have hnd : ((List.finRange n).filter (row c S0 t).alive).Nodup := (List.nodup_finRange n).filter _
    apply List.Pairwise.imp_of_mem _ hnd
    intro a b ha hb hne he
    exact hne (h a b (List.mem_filter.1 ha).2 (List.mem_filter.1 hb).2 he)
  · intro h a b ha hb he
    have hp := firsts_pairwise (S0 t) ((List.finRange n).filter (row c S0 t).alive)
    rw [h] at hp
    by_contra hne
    obtain ⟨i, hi⟩ := List.getElem?_of_mem (List.mem_filter.2 ⟨List.mem_finRange a, ha⟩ : a ∈ (List.finRange n).filter (row c S0 t).alive)
    obtain ⟨j, hj⟩ := List.getElem?_of_mem (List.mem_filter.2 ⟨List.mem_finRange b, hb⟩ : b ∈ (List.finRange n).filter (row c S0 t).alive)
    have hij : i ≠ j := by
      intro e
      rw [e, hj] at hi
      cases hi
      exact hne rfl
    exact getElem?_pairwise (fun _ _ h => Ne.symm h) hp hi hj hij he

/-- C49 (probabilities of a level): the probabilities of the nodes of a level sum to one exactly when the surviving scenarios
have different values at that step; otherwise probability is lost. -/
theorem C49_level_mass (c : Cfg n) (S0 : Nat → Fin n → V) (g : Good c) (hn : 1 ≤ n) (hT : 1 ≤ c.T) (N : List (Node V)) (hN : network c S0 = .ok N)
    (t : Nat) (h1 : 1 ≤ t) (h2 : t < c.T) :
    ((N.filter (fun x => x.t == t)).map (·.p)).sum ≤ 1 ∧ (((N.filter (fun x => x.t == t)).map (·.p)).sum = 1 ↔ Distinct c S0 t) := by
  obtain ⟨par, he, _⟩ := (C49_levels c S0 g hT N hN).2.2.2 t h1 h2
  have hs := sum_alive c S0 g hn t h2
  have hmap : (N.filter (fun x => x.t == t)).map (·.p) = (firsts (S0 t) ((List.finRange n).filter (row c S0 t).alive)).map (row c S0 t).P := by
    rw [he, List.map_map]; rfl
  rw [hmap, distinct_iff]
  have hpos : ∀ s ∈ (List.finRange n).filter (row c S0 t).alive, 0 < (row c S0 t).P s :=
    fun s hs' => (row_pos c S0 g t h2 s).2 (List.mem_filter.1 hs').2
  obtain ⟨h3, h4⟩ := sum_sublist_lt (row c S0 t).P (firsts_sub (S0 t) ((List.finRange n).filter (row c S0 t).alive)) hpos
  rw [hs] at h3 h4
  refine ⟨h3, h4, ?_⟩
  intro h
  rw [h, hs]

theorem network_distinct (c : Cfg n) (S0 : Nat → Fin n → V) (g : Good c) (hT : 1 ≤ c.T) (N : List (Node V)) (hN : network c S0 = .ok N) :
    N.Pairwise (fun a b => ¬ (a.t = b.t ∧ a.v = b.v)) := by
  obtain ⟨a, N', _, hN', hTr⟩ := network_tree c S0 g hT (network_ok_count c S0 g hT hN)
  rw [hN] at hN'
  cases hN'
  exact hTr.distinct

theorem node_at {c : Cfg n} {S0 : Nat → Fin n → V} (g : Good c) (hT : 1 ≤ c.T) {N : List (Node V)} (hN : network c S0 = .ok N) {x : Node V} (hx : x ∈ N) :
    ∃ a, (row c S0 x.t).alive a = true ∧ x.v = S0 x.t a ∧ (1 ≤ x.t → x.p = (row c S0 x.t).P a) ∧ (x.t = 0 → x.p = 1 ∧ x.parent = none) := by
  obtain ⟨⟨a, ha, _, h0⟩, ht, _, hl⟩ := C49_levels c S0 g hT N hN
  have hxf : x ∈ N.filter (fun y => y.t == x.t) := List.mem_filter.2 ⟨hx, by simp⟩
  rcases Nat.eq_zero_or_pos x.t with h | h
  · rw [h] at hxf
    rw [h0, List.mem_singleton] at hxf
    rw [h]
    refine ⟨a, ha, by rw [hxf], fun h => by omega, fun _ => by rw [hxf]; exact ⟨rfl, rfl⟩⟩
  · obtain ⟨par, he, _⟩ := hl x.t h (ht x hx)
    rw [he] at hxf
    obtain ⟨s, hs, hxs⟩ := List.mem_map.1 hxf
    refine ⟨s, (List.mem_filter.1 ((firsts_sub _ _).subset hs)).2, ?_, ?_, fun h' => by omega⟩
    · rw [← hxs]
    · intro _; rw [← hxs]

omit [DecidableEq V] in
theorem root_P (c : Cfg n) (S0 : Nat → Fin n → V) (g : Good c) (hn : 1 ≤ n) (hT : 1 ≤ c.T) (h : count c S0 0 = 1) (a : Fin n)
    (ha : (row c S0 0).alive a = true) : (row c S0 0).P a = 1 := by
  have hs := sum_alive c S0 g hn 0 (by omega)
  rw [count_eq_length, List.length_eq_one_iff] at h
  obtain ⟨b, hb⟩ := h
  have hab : a ∈ alive c S0 0 := List.mem_filter.2 ⟨List.mem_finRange a, ha⟩
  unfold alive at hb hab
  rw [hb, List.mem_singleton] at hab
  rw [hb] at hs
  rw [hab]
  simpa using hs

theorem fiber_sum (n : Nat) (f h : Fin n → Fin n) (A : Finset (Fin n)) (hA : ∀ k, f k ∈ A) (a : Fin n) (hfh : ∀ k, h k = h (f k)) :
    ∑ s ∈ A.filter (fun s => h s = a), ((Finset.univ.filter (fun k => f k = s)).card : ℚ) / n = ((Finset.univ.filter (fun k => h k = a)).card : ℚ) / n := by
  rw [← Finset.sum_div]
  congr 1
  have : ∑ s ∈ A.filter (fun s => h s = a), (Finset.univ.filter (fun k => f k = s)).card = (Finset.univ.filter (fun k => h k = a)).card := by
    rw [Finset.sum_card_fiberwise_eq_card_filter]
    congr 1
    ext k
    simp only [Finset.mem_filter, Finset.mem_univ, true_and]
    rw [← hfh k]
    exact ⟨fun h => h.2, fun h => ⟨hA k, h⟩⟩
  exact_mod_cast this

/-- C49 (tree probabilities): if at the steps `t` and `t + 1` the surviving scenarios have different values, the probability of
every node of step `t` is the sum of the probabilities of its children. -/
theorem C49_children_mass (c : Cfg n) (S0 : Nat → Fin n → V) (g : Good c) (hn : 1 ≤ n) (hT : 1 ≤ c.T) (N : List (Node V)) (hN : network c S0 = .ok N)
    (t : Nat) (ht : t + 1 < c.T) (hd0 : Distinct c S0 t) (hd1 : Distinct c S0 (t + 1)) (i : Nat) (x : Node V) (hx : N[i]? = some x) (hxt : x.t = t) :
    ((N.filter (fun y => y.parent == some i)).map (·.p)).sum = x.p := by
  obtain ⟨_, htm, _, hl⟩ := C49_levels c S0 g hT N hN
  obtain ⟨own, ho⟩ := C48_reduction_is_a_tree c S0 g
  obtain ⟨par, he, hp⟩ := hl (t + 1) (by omega) ht
  rw [(distinct_iff c S0 (t + 1)).1 hd1] at he
  have hxm : x ∈ N := List.mem_of_getElem? hx
  obtain ⟨a, ha, hxv, hxp, hx0⟩ := node_at g hT hN hxm
  rw [hxt] at ha hxv hxp hx0
  have hxP : x.p = (row c S0 t).P a := by
    rcases Nat.eq_zero_or_pos t with h | h
    · rw [(hx0 h).1]
      subst h
      exact (root_P c S0 g hn hT (network_ok_count c S0 g hT hN) a ha).symm
    · exact hxp h
  -- children are at the next level
  have hchild : N.filter (fun y => y.parent == some i) = (N.filter (fun y => y.t == t + 1)).filter (fun y => y.parent == some i) := by
    rw [List.filter_filter]
    apply List.filter_congr
    intro y hy
    by_cases hyp : y.parent = some i
    · have hy1 : y.t = t + 1 := by
        rcases Nat.eq_zero_or_pos y.t with h | h
        · obtain ⟨_, _, _, _, h0⟩ := node_at g hT hN hy
          rw [(h0 h).2] at hyp
          cases hyp
        · obtain ⟨par', he', hp'⟩ := hl y.t h (htm y hy)
          have hyf : y ∈ N.filter (fun z => z.t == y.t) := List.mem_filter.2 ⟨hy, by simp⟩
          rw [he'] at hyf
          obtain ⟨s, hs, hys⟩ := List.mem_map.1 hyf
          obtain ⟨z, hz, hzt, _⟩ := hp' s (List.mem_filter.1 ((firsts_sub _ _).subset hs)).2
          rw [← hys] at hyp
          simp only [Option.some.injEq] at hyp
          rw [hyp, hx] at hz
          cases hz
          omega
      simp [hyp, hy1]
    · simp [hyp]
  rw [hchild, he, List.filter_map, List.map_map]
  have hpar : ∀ s, (row c S0 (t + 1)).alive s = true → ((par s = i) ↔ own t s = a) := by
    intro s hs
    obtain ⟨z, hz, hzt, hzv⟩ := hp s hs
    rw [Nat.add_sub_cancel] at hzt hzv
    rw [(ho t (by omega)).2.2.2.2.2 s] at hzv
    have hos := (ho t (by omega)).1 s
    constructor
    · intro h
      rw [h, hx] at hz
      cases hz
      exact hd0 _ _ hos ha (by rw [← hzv, hxv])
    · intro h
      by_contra hne
      have := getElem?_pairwise (R := fun a b : Node V => ¬ (a.t = b.t ∧ a.v = b.v)) (fun a b h hc => h ⟨hc.1.symm, hc.2.symm⟩)
        (network_distinct c S0 g hT N hN) hz hx hne
      exact this ⟨by rw [hzt, hxt], by rw [hzv, hxv, h]⟩
  have hfil : (List.filter ((fun (y : Node V) => y.parent == some i) ∘ fun s => ({ t := t + 1, p := (row c S0 (t + 1)).P s, v := S0 (t + 1) s, parent := some (par s) } : Node V))
      ((List.finRange n).filter (row c S0 (t + 1)).alive)) = ((List.finRange n).filter (row c S0 (t + 1)).alive).filter (fun s => decide (own t s = a)) := by
    apply List.filter_congr
    intro s hs
    have := hpar s (List.mem_filter.1 hs).2
    simp only [Function.comp]
    by_cases h : own t s = a
    · rw [this.2 h]; simp [h]
    · have h' : par s ≠ i := fun e => h (this.1 e)
      simp [h, h']
  rw [hfil]
  show (List.map (row c S0 (t + 1)).P _).sum = _
  rw [← List.sum_toFinset _ (((List.nodup_finRange n).filter _).filter _), hxP, (ho t (by omega)).2.2.1 a]
  rw [← fiber_sum n (own (t + 1)) (own t) (aliveSet (row c S0 (t + 1))) (fun k => by
    unfold aliveSet; rw [Finset.mem_filter]; exact ⟨Finset.mem_univ _, (ho (t + 1) ht).1 k⟩) a (fun k => (ho t (by omega)).2.2.2.1 k ht)]
  apply Finset.sum_congr
  · ext s
    simp only [aliveSet, List.mem_toFinset, List.mem_filter, List.mem_finRange, true_and, decide_eq_true_eq, Finset.mem_filter, Finset.mem_univ]
  · intro s _
    exact (ho (t + 1) ht).2.2.1 s

/-- C92 (consequence): when the first value is the same for all scenarios (for instance the present, known one) and at least three
scenarios survive at the second step, no tree can be built: the assertion of `_get_network` fails. -/
theorem C92_known_present_fails (c : Cfg n) (S0 : Nat → Fin n → V) (g : Good c) (hT : 1 ≤ c.T) (hz : ∀ r k, c.dist 0 r k = 0)
    (h3 : 3 ≤ count c S0 1) : network c S0 = .error .assertionError := by
  have h := C92_coinciding_scenarios_stall c S0 g 0 (by omega) (fun r k _ _ => hz r k)
  apply network_error c S0 g hT
  simp only [Nat.zero_add] at h
  omega

end PyF.Scenred
