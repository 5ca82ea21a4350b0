import Verif.Scenred.TreeModel
import Verif.Scenred.NetProps

namespace PyF.Scenred
open PyF

variable {n : Nat} {V : Type}

/-- Well-formed tree: the first node is the only one without parent and has time 0; all others have a parent before them, at the
time before. -/
def WF (N : List (Node V)) : Prop :=
  ∀ (k : Nat) (x : Node V), N[k]? = some x → (k = 0 ∧ x.parent = none ∧ x.t = 0) ∨
    (∃ (p : Nat) (y : Node V), x.parent = some p ∧ p < k ∧ N[p]? = some y ∧ y.t + 1 = x.t)

/-! ### Labels -/

theorem addLabel_lt {l : List Nat} {m k : Nat} (h : l = List.range m) (hk : k < m) : addLabel l k = List.range m := by
  unfold addLabel
  rw [if_pos (by rw [h]; exact List.mem_range.2 hk), h]

theorem addLabel_eq {l : List Nat} {m : Nat} (h : l = List.range m) : addLabel l m = List.range (m + 1) := by
  unfold addLabel
  rw [if_neg (by rw [h]; simp), h, List.range_succ]

theorem edges_append (N : List (Node V)) (x : Node V) : edges (N ++ [x]) = edges N ++ (x.parent.map (fun (p : Nat) => (p, N.length))).toList := by
  unfold edges
  rw [List.zipIdx_append, List.filterMap_append]
  congr 1
  cases hx : x.parent <;> simp [hx]

theorem WF.init {N : List (Node V)} {x : Node V} (h : WF (N ++ [x])) : WF N := by
  intro k y hk
  have hlt : k < N.length := by
    by_contra hc
    rw [List.getElem?_eq_none (by omega)] at hk
    cases hk
  rcases h k y (by rw [List.getElem?_append_left hlt]; exact hk) with h | ⟨p, z, h1, h2, h3, h4⟩
  · exact Or.inl h
  · refine Or.inr ⟨p, z, h1, h2, ?_, h4⟩
    rw [List.getElem?_append_left (by omega)] at h3
    exact h3

/-- C94: the graph of a tree with at least one edge has the labels `0, 1, …` in creation order, so positions in
`list(g.nodes)` and labels coincide; the graph of a tree with a single node is empty. -/
theorem C94_graph_labels (N : List (Node V)) (h : WF N) :
    graphLabels N = if N.length ≤ 1 then [] else List.range N.length := by
  induction N using List.reverseRecOn with
  | nil => rfl
  | append_singleton N x ih =>
    have hN := ih h.init
    have hx := h N.length x (by simp)
    unfold graphLabels graphNodes at *
    rw [edges_append, List.foldl_append, hN]
    rcases hx with ⟨h0, h1, _⟩ | ⟨p, y, hp, hlt, _, _⟩
    · have hnil : N = [] := List.length_eq_zero_iff.1 h0
      subst hnil
      simp [h1]
    · rw [hp]
      simp only [Option.map_some, Option.toList_some, List.foldl_cons, List.foldl_nil, List.length_append, List.length_singleton]
      rw [if_neg (show ¬ N.length + 1 ≤ 1 by omega)]
      by_cases h1 : N.length ≤ 1
      · have hN1 : N.length = 1 := by omega
        have hp0 : p = 0 := by omega
        rw [if_pos h1, hN1, hp0]
        rfl
      · rw [if_neg h1, addLabel_lt rfl hlt, addLabel_eq rfl]

/-! ### Paths -/

/-- Specification of a path: `l` runs from the root to `k` along the edges. -/
def IsPath (N : List (Node V)) (l : List Nat) (k : Nat) : Prop :=
  l[l.length - 1]? = some k ∧ ∀ (j i : Nat), l[j]? = some i → ∃ x, N[i]? = some x ∧ x.t = j ∧
    (j = 0 → x.parent = none) ∧ (∀ (i' : Nat), 1 ≤ j → l[j - 1]? = some i' → x.parent = some i')

theorem chain_spec (N : List (Node V)) (h : WF N) : ∀ (k f : Nat), k ≤ f → ∀ x, N[k]? = some x →
    ((chain N f k).reverse ++ [k]).Pairwise (· < ·) ∧ ((chain N f k).reverse ++ [k]).length = x.t + 1 ∧ IsPath N ((chain N f k).reverse ++ [k]) k := by
  intro k
  induction k using Nat.strong_induction_on with
  | _ k ih =>
    intro f hf x hx
    rcases h k x hx with ⟨h0, h1, h2⟩ | ⟨p, y, hp, hlt, hy, hyt⟩
    · have hc : chain N f k = [] := by
        cases f with
        | zero => rfl
        | succ f => simp [chain, hx, h1]
      rw [hc]
      refine ⟨by simp, by simp [h2], by simp, ?_⟩
      intro j i hj
      cases j with
      | zero =>
        simp only [List.reverse_nil, List.nil_append, List.getElem?_cons_zero, Option.some.injEq] at hj
        subst hj
        exact ⟨x, hx, h2, fun _ => h1, fun _ h => by omega⟩
      | succ j => simp at hj
    · obtain ⟨f, rfl⟩ : ∃ f', f = f' + 1 := ⟨f - 1, by omega⟩
      have hc : chain N (f + 1) k = p :: chain N f p := by simp [chain, hx, hp]
      obtain ⟨h1, h2, h3, h4⟩ := ih p hlt f (by omega) y hy
      rw [hc, List.reverse_cons]
      set m := (chain N f p).reverse ++ [p] with hm
      have hmlast : m[m.length - 1]? = some p := h3
      refine ⟨?_, ?_, ?_, ?_⟩
      · rw [List.pairwise_append]
        refine ⟨h1, List.pairwise_singleton _ _, ?_⟩
        intro a ha b hb
        rw [List.mem_singleton] at hb
        rw [hb]
        rw [hm, List.mem_append, List.mem_singleton] at ha
        rcases ha with ha | rfl
        · rw [hm, List.pairwise_append] at h1
          have := h1.2.2 a ha p (List.mem_singleton_self _)
          omega
        · exact hlt
      · rw [List.length_append, h2]; simp; omega
      · simp
      · intro j i hj
        rcases Nat.lt_trichotomy j m.length with hjl | hjl | hjl
        · rw [List.getElem?_append_left hjl] at hj
          obtain ⟨z, hz, hzt, hz0, hzp⟩ := h4 j i hj
          refine ⟨z, hz, hzt, hz0, ?_⟩
          intro i' hj1 hi'
          rw [List.getElem?_append_left (by omega)] at hi'
          exact hzp i' hj1 hi'
        · subst hjl
          simp only [List.getElem?_append_right (le_refl _), Nat.sub_self, List.getElem?_cons_zero, Option.some.injEq] at hj
          subst hj
          refine ⟨x, hx, by omega, fun h => by omega, ?_⟩
          intro i' hj1 hi'
          rw [List.getElem?_append_left (by omega), hmlast] at hi'
          cases hi'
          exact hp
        · rw [List.getElem?_eq_none (by simp; omega)] at hj
          cases hj

theorem pathTo_eq (N : List (Node V)) (h : WF N) (k : Nat) (x : Node V) (hx : N[k]? = some x) : pathTo N k = (chain N N.length k).reverse ++ [k] := by
  have hk : k < N.length := (List.getElem?_eq_some_iff.1 hx).1
  have hp := (chain_spec N h k N.length (by omega) x hx).1
  unfold pathTo
  rw [List.pairwise_append] at hp
  congr 1
  have h1 := hp.1
  have hsort : ((chain N N.length k).reverse).insertionSort (· ≤ ·) = (chain N N.length k).reverse :=
    List.Pairwise.insertionSort_eq (h1.imp (fun h => le_of_lt h))
  rw [← hsort]
  apply List.Perm.eq_of_pairwise (le := (· ≤ ·)) (fun a b _ _ h1 h2 => le_antisymm h1 h2) (List.pairwise_insertionSort _ _) (List.pairwise_insertionSort _ _)
  exact (List.perm_insertionSort _ _).trans ((List.reverse_perm _).symm.trans (List.perm_insertionSort _ _).symm)

theorem foldl_max_spec (l : List Nat) (b : Nat) : b ≤ l.foldl max b ∧ (∀ a ∈ l, a ≤ l.foldl max b) ∧ (l.foldl max b = b ∨ l.foldl max b ∈ l) := by
  induction l generalizing b with
  | nil => simp
  | cons a l ih =>
    obtain ⟨h1, h2, h3⟩ := ih (max b a)
    simp only [List.foldl_cons]
    refine ⟨by omega, ?_, ?_⟩
    · intro c hc
      rcases List.mem_cons.1 hc with rfl | hc
      · omega
      · exact h2 c hc
    · rcases h3 with h3 | h3
      · rw [h3]
        rcases Nat.le_total b a with h | h
        · right; rw [Nat.max_eq_right h]; exact List.mem_cons_self
        · left; exact Nat.max_eq_left h
      · right; exact List.mem_cons_of_mem _ h3

/-- C50: for every non-empty tree `retrieve_scenarios_indexes` succeeds; the leaves are the nodes of the last time, in order;
the column of a leaf is the path from the root to it, one node per time from 0 to the last one. With `dyn_offset` the root is left
out and all labels are one less. -/
theorem C50_paths (N : List (Node V)) (h : WF N) (hne : N ≠ []) :
    ∃ ls : List Nat, ls.Pairwise (· < ·) ∧ ls ≠ [] ∧ (∀ k, k ∈ ls ↔ ∃ x, N[k]? = some x ∧ ∀ y ∈ N, y.t ≤ x.t) ∧
      ∃ path : Nat → List Nat, (∀ k ∈ ls, IsPath N (path k) k ∧ ∃ x, N[k]? = some x ∧ (path k).length = x.t + 1) ∧
        retrieve N false = .ok (ls.map (fun k => (path k).map (fun (i : Nat) => (i : Int))), ls.map (fun (i : Nat) => (i : Int))) ∧
        retrieve N true = .ok (ls.map (fun k => ((path k).tail).map (fun (i : Nat) => (i : Int) - 1)), ls.map (fun (i : Nat) => (i : Int) - 1)) := by
  obtain ⟨h1, h2, h3⟩ := foldl_max_spec (N.map (·.t)) 0
  have hmax : ∀ y ∈ N, y.t ≤ maxTime N := fun y hy => h2 _ (List.mem_map.2 ⟨y, hy, rfl⟩)
  have hatt : ∃ y ∈ N, y.t = maxTime N := by
    rcases h3 with h3 | h3
    · obtain ⟨y, hy⟩ := List.exists_mem_of_ne_nil N hne
      refine ⟨y, hy, ?_⟩
      have := hmax y hy
      unfold maxTime at this ⊢
      omega
    · obtain ⟨y, hy, he⟩ := List.mem_map.1 h3
      exact ⟨y, hy, he⟩
  have hmem : ∀ k, k ∈ leaves N ↔ ∃ x, N[k]? = some x ∧ x.t = maxTime N := by
    intro k
    unfold leaves
    rw [List.mem_filter, List.mem_range]
    constructor
    · rintro ⟨hk, hc⟩
      rw [List.getElem?_eq_getElem hk] at hc ⊢
      simp only [Option.map_some, beq_iff_eq, Option.some.injEq] at hc
      exact ⟨_, rfl, hc⟩
    · rintro ⟨x, hx, ht⟩
      refine ⟨(List.getElem?_eq_some_iff.1 hx).1, ?_⟩
      rw [hx]
      simp [ht]
  have hpath : ∀ k ∈ leaves N, IsPath N (pathTo N k) k ∧ ∃ x, N[k]? = some x ∧ (pathTo N k).length = x.t + 1 ∧ x.t = maxTime N := by
    intro k hk
    obtain ⟨x, hx, ht⟩ := (hmem k).1 hk
    have hlt : k < N.length := (List.getElem?_eq_some_iff.1 hx).1
    obtain ⟨_, hl, hp⟩ := chain_spec N h k N.length (by omega) x hx
    rw [pathTo_eq N h k x hx]
    exact ⟨hp, x, hx, hl, ht⟩
  have hall : (leaves N).all (fun (k : Nat) => (pathTo N k).length == maxTime N + 1) = true := by
    rw [List.all_eq_true]
    intro k hk
    obtain ⟨_, x, _, hl, ht⟩ := hpath k hk
    rw [hl, ht]
    simp
  have hemp : N.isEmpty = false := by simpa using hne
  refine ⟨leaves N, ?_, ?_, ?_, pathTo N, ?_, ?_, ?_⟩
  · exact List.Pairwise.filter _ List.pairwise_lt_range
  · obtain ⟨y, hy, ht⟩ := hatt
    obtain ⟨k, hk⟩ := List.getElem?_of_mem hy
    intro he
    have := (hmem k).2 ⟨y, hk, ht⟩
    rw [he] at this
    cases this
  · intro k
    rw [hmem k]
    constructor
    · rintro ⟨x, hx, ht⟩
      exact ⟨x, hx, fun y hy => by rw [ht]; exact hmax y hy⟩
    · rintro ⟨x, hx, hle⟩
      refine ⟨x, hx, ?_⟩
      obtain ⟨y, hy, ht⟩ := hatt
      have h5 := hle y hy
      have h6 := hmax x (List.mem_of_getElem? hx)
      omega
  · intro k hk
    obtain ⟨hp, x, hx, hl, _⟩ := hpath k hk
    exact ⟨hp, x, hx, hl⟩
  · unfold retrieve
    rw [hemp, hall]
    rfl
  · unfold retrieve
    rw [hemp, hall]
    simp only [Bool.false_eq_true, if_false, if_true, List.map_map]
    congr 2
    · apply List.map_congr_left
      intro k _
      simp only [Function.comp, List.drop_one, ← List.map_tail, List.map_map]
      rfl

/-- C94 (consequence): for a single node nothing is in the graph and no scenario can be retrieved. -/
theorem C94_single_step (c : Cfg n) [DecidableEq V] (S0 : Nat → Fin n → V) (g : Good c) (hT : c.T = 1) (N : List (Node V)) (hN : network c S0 = .ok N) :
    graphLabels N = [] ∧ retrieve ([] : List (Node V)) false = .error .valueError := by
  refine ⟨?_, rfl⟩
  obtain ⟨⟨a, _, _, h0⟩, ht, _⟩ := C49_levels c S0 g (by omega) N hN
  have : N.filter (fun x => x.t == 0) = N := by
    rw [List.filter_eq_self]
    intro x hx
    have := ht x hx
    simp; omega
  rw [this] at h0
  rw [h0]
  rfl

/-- The network of a scenario reduction is a well-formed tree. -/
theorem network_wf [DecidableEq V] (c : Cfg n) (S0 : Nat → Fin n → V) (g : Good c) (hT : 1 ≤ c.T) (N : List (Node V)) (hN : network c S0 = .ok N) : WF N := by
  obtain ⟨⟨a, _, hh, h0⟩, ht, hsort, hl⟩ := C49_levels c S0 g hT N hN
  intro k x hx
  have hxm := List.mem_of_getElem? hx
  have hxf : x ∈ N.filter (fun z => z.t == x.t) := List.mem_filter.2 ⟨hxm, by simp⟩
  rcases Nat.eq_zero_or_pos x.t with h | h
  · left
    obtain ⟨_, _, _, _, hn⟩ := node_at g hT hN hxm
    refine ⟨?_, (hn h).2, h⟩
    by_contra hk
    rw [h, h0, List.mem_singleton] at hxf
    have := getElem?_pairwise (R := fun a b : Node V => ¬ (a.t = b.t ∧ a.v = b.v)) (fun a b h hc => h ⟨hc.1.symm, hc.2.symm⟩)
        (network_distinct c S0 g hT N hN) hx hh hk
    exact this ⟨by rw [hxf], by rw [hxf]⟩
  · right
    obtain ⟨par, he, hp⟩ := hl x.t h (ht x hxm)
    rw [he] at hxf
    obtain ⟨s, hs, hxs⟩ := List.mem_map.1 hxf
    obtain ⟨y, hy, hyt, _⟩ := hp s (List.mem_filter.1 ((firsts_sub _ _).subset hs)).2
    refine ⟨par s, y, by rw [← hxs], ?_, hy, by omega⟩
    by_contra hc
    rcases Nat.lt_or_eq_of_le (Nat.le_of_not_lt hc) with hlt | heq
    · rw [List.pairwise_iff_getElem] at hsort
      obtain ⟨h1, h2⟩ := List.getElem?_eq_some_iff.1 hx
      obtain ⟨h3, h4⟩ := List.getElem?_eq_some_iff.1 hy
      have := hsort k (par s) h1 h3 hlt
      rw [h2, h4] at this
      omega
    · rw [← heq, hx] at hy
      cases hy
      omega

/-- C50 (values): if the survivors have different values at every step, reading the values along the path to the `j`-th leaf gives
back the reduced values of the `j`-th returned scenario. -/
theorem C50_values [DecidableEq V] (c : Cfg n) (S0 : Nat → Fin n → V) (g : Good c) (hT : 1 ≤ c.T) (N : List (Node V)) (hN : network c S0 = .ok N)
    (hd : ∀ t, t < c.T → Distinct c S0 t) (l : List Nat) (k : Nat) (x : Node V) (hx : N[k]? = some x) (hl : IsPath N l k) (s : Fin n)
    (hs : (row c S0 x.t).alive s = true) (hv : x.v = S0 x.t s) (hlen : l.length = x.t + 1) :
    ∀ (t i : Nat), l[t]? = some i → ∃ y, N[i]? = some y ∧ y.v = finalS c S0 t s := by
  obtain ⟨own, ho⟩ := C48_reduction_is_a_tree c S0 g
  obtain ⟨_, ht, _, hlev⟩ := C49_levels c S0 g hT N hN
  have hxt := ht x (List.mem_of_getElem? hx)
  -- one step back along an edge
  have back : ∀ (t : Nat), 1 ≤ t → t < c.T → ∀ y : Node V, y ∈ N → y.t = t → ∀ a, (row c S0 t).alive a = true → y.v = S0 t a →
      ∀ i', y.parent = some i' → ∃ z, N[i']? = some z ∧ z.v = S0 (t - 1) (own (t - 1) a) := by
    intro t h1 h2 y hy hyt a ha hya i' hi'
    obtain ⟨par, he, hp⟩ := hlev t h1 h2
    have hyf : y ∈ N.filter (fun z => z.t == t) := List.mem_filter.2 ⟨hy, by simp [hyt]⟩
    rw [he] at hyf
    obtain ⟨b, hb, hyb⟩ := List.mem_map.1 hyf
    have hba := (List.mem_filter.1 ((firsts_sub _ _).subset hb)).2
    have : b = a := hd t h2 b a hba ha (by rw [← hya, ← hyb])
    subst this
    obtain ⟨z, hz, _, hzv⟩ := hp b hba
    rw [← hyb] at hi'
    simp only [Option.some.injEq] at hi'
    rw [hi'] at hz
    exact ⟨z, hz, by rw [hzv, (ho (t - 1) (by omega)).2.2.2.2.2 b]⟩
  have key : ∀ d, d ≤ x.t → ∀ i, l[x.t - d]? = some i → ∃ y, N[i]? = some y ∧ y.v = S0 (x.t - d) (own (x.t - d) s) := by
    intro d
    induction d with
    | zero =>
      intro _ i hi
      have hlast := hl.1
      rw [hlen] at hlast
      simp only [Nat.add_sub_cancel, Nat.sub_zero] at hlast hi ⊢
      rw [hi] at hlast
      cases hlast
      exact ⟨x, hx, by rw [hv, (ho x.t hxt).2.1 s hs]⟩
    | succ d ih =>
      intro hd' i hi
      obtain ⟨i1, hi1⟩ : ∃ i1, l[x.t - d]? = some i1 := ⟨_, List.getElem?_eq_getElem (by omega)⟩
      obtain ⟨y, hy, hyv⟩ := ih (by omega) i1 hi1
      obtain ⟨y', hy', hyt, _, hpar⟩ := hl.2 (x.t - d) i1 hi1
      rw [hy] at hy'
      cases hy'
      have hp := hpar i (by omega) (by rw [show x.t - d - 1 = x.t - (d + 1) by omega]; exact hi)
      obtain ⟨z, hz, hzv⟩ := back (x.t - d) (by omega) (by omega) y (List.mem_of_getElem? hy) hyt (own (x.t - d) s) ((ho _ (by omega)).1 s) hyv i hp
      refine ⟨z, hz, ?_⟩
      rw [hzv, show x.t - d - 1 = x.t - (d + 1) by omega]
      have := (ho (x.t - (d + 1)) (by omega)).2.2.2.1 s (by omega)
      rw [show x.t - (d + 1) + 1 = x.t - d by omega] at this
      rw [← this]
  intro t i hi
  have htl : t < l.length := (List.getElem?_eq_some_iff.1 hi).1
  obtain ⟨y, hy, hyv⟩ := key (x.t - t) (by omega) i (by rw [show x.t - (x.t - t) = t by omega]; exact hi)
  rw [show x.t - (x.t - t) = t by omega] at hyv
  exact ⟨y, hy, by rw [hyv, (ho t (by omega)).2.2.2.2.2 s]⟩

/-! ### Superimposing -/

theorem replaceVar_map (N : List (Node V)) (f : Node V → V) : replaceVar N (N.map f) = N.map (fun x => { x with v := f x }) := by
  apply List.ext_getElem?
  intro k
  unfold replaceVar
  rw [List.getElem?_map, List.getElem?_map, List.getElem?_zipIdx]
  cases hk : N[k]? with
  | none => simp
  | some x => simp [hk]

theorem unique_spec (l : List Nat) : (unique l).Pairwise (· < ·) ∧ ∀ t, t ∈ unique l ↔ t ∈ l := by
  unfold unique
  have hp := List.perm_insertionSort (· ≤ ·) l.dedup
  constructor
  · have h1 : (l.dedup.insertionSort (· ≤ ·)).Pairwise (· ≤ ·) := List.pairwise_insertionSort _ _
    have h2 : (l.dedup.insertionSort (· ≤ ·)).Nodup := hp.nodup_iff.2 (List.nodup_dedup l)
    exact (h1.and h2).imp (fun h => lt_of_le_of_ne h.1 h.2)
  · intro t
    rw [hp.mem_iff, List.mem_dedup]

theorem foldl_addAt [Add V] (N : List (Node V)) (x : Nat → V) (ts : List Nat) (hts : ts.Pairwise (· < ·)) (f : Node V → V) :
    ts.foldl (addAt (N.map (·.t)) x) (N.map f) = N.map (fun y => if y.t ∈ ts then f y + x y.t else f y) := by
  induction ts generalizing f with
  | nil => simp
  | cons t ts ih =>
    rw [List.pairwise_cons] at hts
    have h1 : addAt (N.map (·.t)) x (N.map f) t = N.map (fun y => if y.t = t then f y + x t else f y) := by
      unfold addAt
      rw [List.zipWith_map, List.zipWith_self]
    rw [List.foldl_cons, h1, ih hts.2]
    apply List.map_congr_left
    intro y _
    by_cases hy : y.t = t
    · have : y.t ∉ ts := fun h => by have := hts.1 _ h; omega
      rw [if_neg this, if_pos hy, if_pos (by rw [hy]; exact List.mem_cons_self), hy]
    · rw [if_neg hy]
      by_cases hm : y.t ∈ ts
      · rw [if_pos hm, if_pos (List.mem_cons_of_mem _ hm)]
      · rw [if_neg hm, if_neg]
        intro h
        rcases List.mem_cons.1 h with h | h
        · exact hy h
        · exact hm h

/-- C51: superimposing adds the signal at the node's time to its value and changes nothing else. -/
theorem C51_superimpose [Add V] (x : Nat → V) (N : List (Node V)) :
    superimpose x N = N.map (fun y => { y with v := y.v + x y.t }) := by
  unfold superimpose
  have h1 := foldl_addAt N x (unique (N.map (·.t))) (unique_spec _).1 (·.v)
  have h2 : (fun y : Node V => if y.t ∈ unique (N.map (·.t)) then y.v + x y.t else y.v) = fun y => if y.t ∈ N.map (·.t) then y.v + x y.t else y.v := by
    funext y
    simp only [(unique_spec (N.map (·.t))).2 y.t]
  rw [h1, h2, replaceVar_map]
  apply List.map_congr_left
  intro y hy
  rw [if_pos (List.mem_map.2 ⟨y, hy, rfl⟩)]

/-- C51 (laws): superimposing twice is superimposing the sum; the opposite signal undoes it. -/
theorem C51_laws [AddCommGroup V] (x y : Nat → V) (N : List (Node V)) :
    superimpose y (superimpose x N) = superimpose (fun t => x t + y t) N ∧ superimpose (fun t => - x t) (superimpose x N) = N := by
  simp only [C51_superimpose, List.map_map]
  constructor
  · apply List.map_congr_left
    intro z _
    simp [add_assoc]
  · rw [List.map_congr_left (g := id)]
    · simp
    · intro z _
      simp

/-- C51 (level sizes): the number of nodes per time does not change and is the number of nodes of that time, times increasing. -/
theorem C51_nodes_per_time [Add V] (x : Nat → V) (N : List (Node V)) :
    nodesPerTime (superimpose x N) = nodesPerTime N ∧ ∃ ts : List Nat, ts.Pairwise (· < ·) ∧ (∀ t, t ∈ ts ↔ ∃ y ∈ N, y.t = t) ∧
      nodesPerTime N = ts.map (fun (t : Nat) => (N.filter (fun y => y.t == t)).length) := by
  constructor
  · unfold nodesPerTime
    rw [C51_superimpose, List.map_map]
    rfl
  · refine ⟨unique (N.map (·.t)), (unique_spec _).1, ?_, ?_⟩
    · intro t
      rw [(unique_spec _).2, List.mem_map]
    · unfold nodesPerTime
      apply List.map_congr_left
      intro t _
      rw [List.countP_map, List.countP_eq_length_filter]
      rfl

end PyF.Scenred
