import Verif.TreeObs.Model
import Verif.Scenred.TreeProps

/-! C275: the observations of a tree at a step. -/

namespace PyF.TreeObs
open PyF PyF.Scenred

/-- Node `k` is node `i` or one of its descendants. -/
inductive Below {V : Type} (N : List (Node V)) (i : Nat) : Nat → Prop
  | self : Below N i i
  | child (p k : Nat) (x : Node V) : Below N i p → N[k]? = some x → x.parent = some p → Below N i k

/-- A node of the last time. -/
def Last {V : Type} (N : List (Node V)) (k : Nat) : Prop := ∃ x, N[k]? = some x ∧ ∀ y ∈ N, y.t ≤ x.t

theorem uniqueVals_spec (l : List ℚ) : (uniqueVals l).Pairwise (· < ·) ∧ ∀ v, v ∈ uniqueVals l ↔ v ∈ l := by
  have hp : (uniqueVals l).Perm l.dedup := List.perm_insertionSort _ _
  refine ⟨?_, fun v => by rw [hp.mem_iff, List.mem_dedup]⟩
  have h1 : (uniqueVals l).Pairwise (· ≤ ·) := List.pairwise_insertionSort _ _
  have h2 : (uniqueVals l).Nodup := hp.nodup_iff.2 (List.nodup_dedup l)
  exact (h1.and h2).imp (fun h => lt_of_le_of_ne h.1 h.2)

theorem maxTime_last {V : Type} (N : List (Node V)) (k : Nat) (x : Node V) (hx : N[k]? = some x)
    (h : ∀ y ∈ N, y.t ≤ x.t) : x.t = maxTime N := by
  obtain ⟨_, h2, h3⟩ := foldl_max_spec (N.map (·.t)) 0
  have hm : x.t ≤ maxTime N := h2 _ (List.mem_map.2 ⟨x, List.mem_of_getElem? hx, rfl⟩)
  rcases h3 with h3 | h3
  · unfold maxTime at hm ⊢; omega
  · obtain ⟨y, hy, hyt⟩ := List.mem_map.1 h3
    have h4 := h y hy
    have h5 : y.t = maxTime N := hyt
    omega

/-- Along a path every node lies above the end. -/
theorem path_below {V : Type} (N : List (Node V)) (l : List Nat) (k : Nat) (hl : IsPath N l k) (j i : Nat)
    (hj : l[j]? = some i) : Below N i k := by
  have key : ∀ d, ∀ m, j + d = m → ∀ i', l[m]? = some i' → Below N i i' := by
    intro d
    induction d with
    | zero =>
      intro m hm i' hi'
      rw [← hm, Nat.add_zero, hj] at hi'
      cases hi'
      exact .self
    | succ d ih =>
      intro m hm i' hi'
      have hlt : m - 1 < l.length := by
        have := (List.getElem?_eq_some_iff.1 hi').1
        omega
      obtain ⟨x, hx, _, _, hpar⟩ := hl.2 m i' hi'
      have h1 : l[m - 1]? = some l[m - 1] := List.getElem?_eq_getElem hlt
      exact .child _ _ x (ih (m - 1) (by omega) _ h1) hx (hpar _ (by omega) h1)
  have hjl := (List.getElem?_eq_some_iff.1 hj).1
  exact key (l.length - 1 - j) (l.length - 1) (by omega) k hl.1

/-- A node above the end of a path lies on it, at its own time. -/
theorem below_path {V : Type} (N : List (Node V)) (l : List Nat) (k i : Nat) (hl : IsPath N l k)
    (hb : Below N i k) : ∃ j : Nat, l[j]? = some i := by
  have key : ∀ k', Below N i k' → ∀ j : Nat, l[j]? = some k' → ∃ j : Nat, l[j]? = some i := by
    intro k' hk'
    induction hk' with
    | self => intro j hj; exact ⟨j, hj⟩
    | child p k' x _ hx hp ih =>
      intro j hj
      obtain ⟨y, hy, _, h0, hpar⟩ := hl.2 j k' hj
      rw [hx] at hy
      cases hy
      by_cases hj0 : j = 0
      · rw [h0 hj0] at hp; cases hp
      · have hlt : j - 1 < l.length := by
          have := (List.getElem?_eq_some_iff.1 hj).1
          omega
        have h1 : l[j - 1]? = some l[j - 1] := List.getElem?_eq_getElem hlt
        have h2 := hpar _ (by omega) h1
        rw [hp] at h2
        injection h2 with h2
        exact ih (j - 1) (by rw [h1, ← h2])
  exact key k hb (l.length - 1) hl.1

/-- C275: on a non-empty tree `obs_at_step_t` returns for a step within the tree, in increasing order and without repetitions,
exactly the values of the nodes of that time from which the last time can be reached; beyond the tree it raises. -/
theorem C275_observations (N : List (Node (List ℚ))) (h : WF N) (hne : N ≠ []) (t : Nat) :
    (t ≤ maxTime N → ∃ r, obsAtStep N t = .ok r ∧ r.Pairwise (· < ·) ∧
      ∀ v, v ∈ r ↔ ∃ (i k : Nat) (x : Node (List ℚ)), N[i]? = some x ∧ x.t = t ∧ v ∈ x.v ∧ Below N i k ∧ Last N k) ∧
    (maxTime N < t → obsAtStep N t = .error .indexError) := by
  obtain ⟨ls, _, _, hls, path, hpath, hret, _⟩ := C50_paths N h hne
  constructor
  · intro ht
    refine ⟨uniqueVals ((ls.map (fun k => (path k).map (fun (i : Nat) => (i : Int)))).flatMap
      (fun col => valueOf N (col.getD t 0))), ?_, (uniqueVals_spec _).1, ?_⟩
    · unfold obsAtStep
      rw [hret]
      simp only
      rw [if_neg (by omega), if_neg (by omega)]
      rfl
    · intro v
      rw [(uniqueVals_spec _).2, List.mem_flatMap]
      have hcol : ∀ k ∈ ls, ∃ i x, (path k)[t]? = some i ∧ N[i]? = some x ∧ x.t = t ∧
          valueOf N (((path k).map (fun (i : Nat) => (i : Int))).getD t 0) = x.v := by
        intro k hk
        obtain ⟨hp, x, hx, hlen⟩ := hpath k hk
        obtain ⟨x', hx', hmax⟩ := (hls k).1 hk
        rw [hx] at hx'
        cases hx'
        have htm := maxTime_last N k x hx hmax
        have hlt : t < (path k).length := by omega
        have hget : (path k)[t]? = some (path k)[t] := List.getElem?_eq_getElem hlt
        obtain ⟨y, hy, hyt, _⟩ := hp.2 t _ hget
        refine ⟨_, y, hget, hy, hyt, ?_⟩
        rw [List.getD_eq_getElem?_getD, List.getElem?_map, hget]
        simp only [Option.map_some, Option.getD_some, valueOf, Int.toNat_natCast, hy, Option.elim]
      constructor
      · rintro ⟨col, hcol', hv⟩
        obtain ⟨k, hk, rfl⟩ := List.mem_map.1 hcol'
        obtain ⟨i, x, hi, hx, hxt, hval⟩ := hcol k hk
        rw [hval] at hv
        exact ⟨i, k, x, hx, hxt, hv, path_below N _ k (hpath k hk).1 t i hi, (hls k).1 hk⟩
      · rintro ⟨i, k, x, hx, hxt, hv, hb, hlast⟩
        have hk := (hls k).2 hlast
        obtain ⟨i', x', hi', hx', hxt', hval⟩ := hcol k hk
        refine ⟨_, List.mem_map.2 ⟨k, hk, rfl⟩, ?_⟩
        rw [hval]
        obtain ⟨j, hj⟩ := below_path N _ k i (hpath k hk).1 hb
        obtain ⟨y, hy, hyt, _⟩ := (hpath k hk).1.2 j i hj
        rw [hx] at hy
        cases hy
        have : j = t := by omega
        subst this
        rw [hi'] at hj
        cases hj
        rw [hx'] at hx
        cases hx
        exact hv
  · intro ht
    unfold obsAtStep
    rw [hret]
    simp only
    rw [if_pos (by omega)]

/-- C275 (full trees): if every node reaches the last time, these are the values of all nodes of the step. -/
theorem C275_full (N : List (Node (List ℚ))) (h : WF N) (hne : N ≠ []) (hf : ∀ i < N.length, ∃ k, Below N i k ∧ Last N k)
    (t : Nat) (ht : t ≤ maxTime N) :
    ∃ r, obsAtStep N t = .ok r ∧ r.Pairwise (· < ·) ∧ ∀ v, v ∈ r ↔ ∃ x ∈ N, x.t = t ∧ v ∈ x.v := by
  obtain ⟨r, h1, h2, h3⟩ := (C275_observations N h hne t).1 ht
  refine ⟨r, h1, h2, fun v => ?_⟩
  rw [h3]
  constructor
  · rintro ⟨i, k, x, hx, hxt, hv, _⟩
    exact ⟨x, List.mem_of_getElem? hx, hxt, hv⟩
  · rintro ⟨x, hx, hxt, hv⟩
    obtain ⟨i, hi⟩ := List.mem_iff_getElem?.1 hx
    obtain ⟨k, hk, hl⟩ := hf i (List.getElem?_eq_some_iff.1 hi).1
    exact ⟨i, k, x, hi, hxt, hv, hk, hl⟩

/-- C275 (from the end): step `-1 - j` is the step `j` before the last one. -/
theorem C275_negative (N : List (Node (List ℚ))) (h : WF N) (hne : N ≠ []) (j : Nat) :
    obsAtStep N (-1 - (j : Int)) = if j ≤ maxTime N then obsAtStep N ((maxTime N - j : Nat) : Int) else .error .indexError := by
  obtain ⟨ls, _, _, _, path, _, hret, _⟩ := C50_paths N h hne
  unfold obsAtStep
  rw [hret]
  simp only
  by_cases hj : j ≤ maxTime N
  · rw [if_pos hj, if_neg (by omega), if_pos (by omega), if_neg (by omega), if_neg (by omega)]
    congr 3
    funext col
    congr 2
    omega
  · rw [if_neg hj, if_pos (by omega)]

end PyF.TreeObs
