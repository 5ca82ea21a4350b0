import Verif.BinFlat.Spec

namespace PyF.BinFlat
open PyF PyF.Names PyF.Transform PyF.Binned

theorem cnt_iff (i : Nat) : ∀ (e : List Nat), e.Pairwise (· < ·) → ∀ j (hj : j < e.length), e[j] ≤ i ↔ j < (e.filter (fun x => decide (x ≤ i))).length := by
  intro e
  induction e with
  | nil => intro _ j hj; simp at hj
  | cons x e ih =>
    intro hp j hj
    obtain ⟨h1, h2⟩ := List.pairwise_cons.1 hp
    by_cases hx : x ≤ i
    · rw [List.filter_cons_of_pos (by simpa using hx)]
      cases j with
      | zero => simpa using hx
      | succ j =>
        simp only [List.getElem_cons_succ, List.length_cons, Nat.succ_lt_succ_iff]
        exact ih h2 j (by simpa using hj)
    · have he : e.filter (fun x => decide (x ≤ i)) = [] := by
        rw [List.filter_eq_nil_iff]
        intro y hy
        have := h1 y hy
        simp only [decide_eq_true_eq, not_le]
        omega
      rw [List.filter_cons_of_neg (by simpa using hx), he]
      simp only [List.length_nil, Nat.not_lt_zero, iff_false, not_le]
      cases j with
      | zero => simpa using hx
      | succ j =>
        have hj' : j < e.length := by simpa using hj
        have := h1 e[j] (List.getElem_mem hj')
        simp only [List.getElem_cons_succ]
        omega

theorem binNo_iff (e : List Nat) (he : e.Pairwise (· < ·)) (i k : Nat) (hk : k + 1 < e.length) :
    binNo e i = k + 1 ↔ e[k] ≤ i ∧ (i < e[k + 1] ∨ (k + 2 = e.length ∧ i = e[k + 1])) := by
  have hlast : e.getLastD 0 = e[e.length - 1] := by
    rw [List.getLastD_eq_getLast?, List.getLast?_eq_getElem?, List.getElem?_eq_getElem (by omega)]
    rfl
  have hle : (e.filter (fun x => decide (x ≤ i))).length ≤ e.length := List.length_filter_le _ _
  have hmono : ∀ a b (ha : a < e.length) (hb : b < e.length), a < b → e[a] < e[b] := fun a b ha hb h => List.pairwise_iff_getElem.1 he a b ha hb h
  have h1 := cnt_iff i e he k (by omega)
  have h2 := cnt_iff i e he (k + 1) hk
  have h3 := cnt_iff i e he (e.length - 1) (by omega)
  unfold binNo
  rw [hlast]
  by_cases hi : i = e[e.length - 1]
  · rw [if_pos hi]
    have h4 : e.length - 1 < (e.filter (fun x => decide (x ≤ i))).length := h3.1 (le_of_eq hi.symm)
    by_cases hk2 : k + 2 = e.length
    · have h5 : e[k + 1] = e[e.length - 1] := by congr 1; omega
      refine iff_of_true (by omega) ⟨h1.2 (by omega), Or.inr ⟨hk2, by rw [h5]; exact hi⟩⟩
    · refine iff_of_false (by omega) ?_
      rintro ⟨-, h | ⟨h, -⟩⟩
      · have := hmono (k + 1) (e.length - 1) hk (by omega) (by omega)
        omega
      · exact hk2 h
  · rw [if_neg hi]
    constructor
    · intro h
      refine ⟨h1.2 (by omega), Or.inl ?_⟩
      by_contra hc
      have := h2.1 (by omega)
      omega
    · rintro ⟨ha, hb | ⟨hb, hc⟩⟩
      · have h5 := h1.1 ha
        have h6 : ¬ (k + 1 < (e.filter (fun x => decide (x ≤ i))).length) := fun h => by
          have := h2.2 h
          omega
        omega
      · refine absurd ?_ hi
        rw [hc]
        congr 1
        omega

theorem filter_between (n a b : Nat) (hab : a ≤ b) (hb : b ≤ n) (q : Nat → Bool) (hq : ∀ i < n, q i = true ↔ a ≤ i ∧ i < b) :
    (List.range n).filter q = List.range' a (b - a) := by
  have e : List.range n = List.range' 0 a ++ (List.range' a (b - a) ++ List.range' b (n - b)) := by
    rw [List.range_eq_range']
    have h1 : List.range' a (b - a) ++ List.range' b (n - b) = List.range' a (n - a) := by
      have := List.range'_append_1 (s := a) (m := b - a) (n := n - b)
      rw [show a + (b - a) = b by omega, show b - a + (n - b) = n - a by omega] at this
      exact this
    have h2 := List.range'_append_1 (s := 0) (m := a) (n := n - a)
    rw [Nat.zero_add, show a + (n - a) = n by omega] at h2
    rw [h1, h2]
  rw [e, List.filter_append, List.filter_append]
  have f1 : (List.range' 0 a).filter q = [] := by
    rw [List.filter_eq_nil_iff]
    intro x hx hqx
    have hx' := List.mem_range'_1.1 hx
    have := (hq x (by omega)).1 hqx
    omega
  have f2 : (List.range' a (b - a)).filter q = List.range' a (b - a) := by
    rw [List.filter_eq_self]
    intro x hx
    have hx' := List.mem_range'_1.1 hx
    exact (hq x (by omega)).2 ⟨by omega, by omega⟩
  have f3 : (List.range' b (n - b)).filter q = [] := by
    rw [List.filter_eq_nil_iff]
    intro x hx hqx
    have hx' := List.mem_range'_1.1 hx
    have := (hq x (by omega)).1 hqx
    omega
  rw [f1, f2, f3, List.nil_append, List.append_nil]

theorem members_eq (e : List Nat) (he : e.Pairwise (· < ·)) (n k : Nat) (hk : k + 1 < e.length) (hn : n ≤ e.getLastD 0) (hkn : e[k + 1] ≤ n) :
    members e n k = List.range' e[k] (e[k + 1] - e[k]) := by
  have hlt : e[k] < e[k + 1] := List.pairwise_iff_getElem.1 he k (k + 1) (by omega) hk (by omega)
  apply filter_between n _ _ hlt.le hkn
  intro i hi
  rw [beq_iff_eq, binNo_iff e he i k hk]
  constructor
  · rintro ⟨h1, h2 | ⟨h3, h2⟩⟩
    · exact ⟨h1, h2⟩
    · have hlast : e.getLastD 0 = e[k + 1] := by
        rw [List.getLastD_eq_getLast?, List.getLast?_eq_getElem?, List.getElem?_eq_getElem (by omega)]
        simp only [Option.getD_some]
        congr 1
        omega
      omega
  · rintro ⟨h1, h2⟩
    exact ⟨h1, Or.inl h2⟩

theorem edges_pairwise {b : List Nat} (hb : Desc b) : (edges b).Pairwise (· < ·) := by
  cases b with
  | nil => simp [edges]
  | cons x b =>
    have h0 := List.pairwise_cons.1 hb
    unfold edges
    rw [List.pairwise_map]
    refine hb.imp_of_mem ?_
    intro a c ha hc hac
    simp only [List.headD_cons]
    have h1 : a ≤ x := by
      rcases List.mem_cons.1 ha with h | h
      · omega
      · have := h0.1 a h
        omega
    have : c < a := hac
    omega

theorem le_head {b : List Nat} (hb : Desc b) : ∀ x ∈ b, x ≤ b.headD 0 := by
  cases b with
  | nil => intro x hx; cases hx
  | cons y b =>
    intro x hx
    rcases List.mem_cons.1 hx with h | h
    · exact le_of_eq h
    · exact ((List.pairwise_cons.1 hb).1 x h).le

theorem last_le {b : List Nat} (hb : Desc b) : ∀ x ∈ b, b.getLastD 0 ≤ x := by
  induction b with
  | nil => intro x hx; cases hx
  | cons y b ih =>
    intro x hx
    cases b with
    | nil => simp at hx; simp [hx]
    | cons z b =>
      have h := List.pairwise_cons.1 hb
      have e : (y :: z :: b).getLastD 0 = (z :: b).getLastD 0 := by simp
      rw [e]
      rcases List.mem_cons.1 hx with h' | h'
      · subst h'
        exact (ih h.2 z List.mem_cons_self).trans (h.1 z List.mem_cons_self).le
      · exact ih h.2 x h'

theorem edges_last {b : List Nat} (hne : b ≠ []) : (edges b).getLastD 0 = binSteps b := by
  unfold edges binSteps
  rw [List.getLastD_eq_getLast?, List.getLastD_eq_getLast?, List.getLast?_map]
  obtain ⟨y, hy⟩ := List.getLast?_isSome.2 hne |> Option.isSome_iff_exists.1
  rw [hy]
  rfl

/-! ### Windows -/

theorem filterMap_full {l : List (Option ℚ)} (h : ¬ (l.filterMap id).length < l.length) : l = (l.filterMap id).map some := by
  induction l with
  | nil => rfl
  | cons a l ih =>
    have h1 := List.length_filterMap_le id l
    cases a with
    | none =>
      rw [List.filterMap_cons_none rfl, List.length_cons] at h
      omega
    | some v =>
      rw [List.filterMap_cons_some (f := id) (b := v) rfl, List.length_cons, List.length_cons] at h
      rw [List.filterMap_cons_some (f := id) (b := v) rfl, List.map_cons, ← ih (by omega)]

theorem windowAt_some {c : Col} {s t : Nat} {w : List ℚ} (h : windowAt c s t = some w) : w.length = s ∧ (c.drop t).take s = w.map some := by
  unfold windowAt at h
  split at h
  · cases h
  · rename_i hn
    injection h with h
    have h1 : ((c.drop t).take s).length ≤ s := by rw [List.length_take]; exact Nat.min_le_left _ _
    have h2 := List.length_filterMap_le id ((c.drop t).take s)
    have h3 := filterMap_full (l := (c.drop t).take s) (by omega)
    subst h
    exact ⟨by omega, h3⟩

theorem sample_window {c : Col} {s t : Nat} {w : List ℚ} (h : windowAt c s t = some w) (j : Nat) (hj : j < s) :
    sample c ((t + j : Nat) : Int) = some (w.getD j 0) ∧ t + j < c.length := by
  obtain ⟨h1, h2⟩ := windowAt_some h
  have e : ((c.drop t).take s)[j]? = some (some (w.getD j 0)) := by
    rw [h2, List.getElem?_map, List.getD_eq_getElem?_getD, List.getElem?_eq_getElem (by omega)]
    rfl
  rw [List.getElem?_take, if_pos hj, List.getElem?_drop] at e
  refine ⟨?_, ?_⟩
  · unfold sample
    rw [if_pos (by omega), Int.toNat_natCast, e]
    rfl
  · by_contra hc
    rw [List.getElem?_eq_none (by omega)] at e
    cases e

theorem windowAt_isSome (c : Col) (s t : Nat) (hs : 0 < s) : (windowAt c s t).isSome = decide (Full c s t) := by
  rw [Bool.eq_iff_iff, decide_eq_true_iff]
  constructor
  · intro h
    obtain ⟨w, hw⟩ := Option.isSome_iff_exists.1 h
    refine ⟨?_, fun j hj => by rw [(sample_window hw j hj).1]; simp⟩
    have := (sample_window hw (s - 1) (by omega)).2
    omega
  · rintro ⟨h1, h2⟩
    unfold windowAt
    have hlen : ((c.drop t).take s).length = s := by rw [List.length_take, List.length_drop]; omega
    have hall : ∀ x ∈ (c.drop t).take s, x ≠ none := by
      intro x hx
      obtain ⟨j, hj, rfl⟩ := List.mem_iff_getElem.1 hx
      have hj' : j < s := by omega
      have := h2 j hj'
      unfold sample at this
      rw [if_pos (by omega), Int.toNat_natCast, List.getElem?_eq_getElem (by omega)] at this
      rw [List.getElem_take, List.getElem_drop]
      simpa using this
    have : ∀ l : List (Option ℚ), (∀ x ∈ l, x ≠ none) → (l.filterMap id).length = l.length := by
      intro l
      induction l with
      | nil => intro _; rfl
      | cons a l ih =>
        intro hl
        cases a with
        | none => exact absurd rfl (hl none List.mem_cons_self)
        | some v =>
          rw [List.filterMap_cons_some (f := id) (b := v) rfl, List.length_cons, List.length_cons, ih (fun x hx => hl x (List.mem_cons_of_mem _ hx))]
    rw [if_neg (by rw [this _ hall]; omega)]
    rfl

theorem calls_fst (c : Col) (s : Nat) (hs : 0 < s) : (calls c s).map Prod.fst = fullRows c s := by
  unfold calls fullRows
  have : ∀ l : List Nat, (l.filterMap (fun t => (windowAt c s t).map (fun w => (t, w)))).map Prod.fst = l.filter (fun t => decide (Full c s t)) := by
    intro l
    induction l with
    | nil => rfl
    | cons t l ih =>
      have h := windowAt_isSome c s t hs
      cases hw : windowAt c s t with
      | none =>
        rw [hw] at h
        rw [List.filterMap_cons_none (by rw [hw]; rfl), List.filter_cons_of_neg (by rw [← h]; simp), ih]
      | some w =>
        rw [hw] at h
        rw [List.filterMap_cons_some (by rw [hw]; rfl), List.filter_cons_of_pos (by rw [← h]; simp), List.map_cons, ih]
  exact this _

theorem calls_mem {c : Col} {s : Nat} {p : Nat × List ℚ} (h : p ∈ calls c s) : windowAt c s p.1 = some p.2 := by
  unfold calls at h
  obtain ⟨t, -, ht⟩ := List.mem_filterMap.1 h
  cases hw : windowAt c s t with
  | none => rw [hw] at ht; cases ht
  | some w =>
    rw [hw] at ht
    cases ht
    exact hw

theorem mapM_ok {α β : Type} (g : α → Except PyErr β) (v : α → β) : ∀ l : List α, (∀ x ∈ l, g x = .ok (v x)) → l.mapM g = .ok (l.map v) := by
  intro l
  induction l with
  | nil => intro _; rfl
  | cons a l ih =>
    intro h
    rw [List.mapM_cons, h a List.mem_cons_self, ih (fun x hx => h x (List.mem_cons_of_mem _ hx))]
    rfl

theorem mapM_some {α β : Type} (g : α → Option β) (v : α → β) : ∀ l : List α, (∀ x ∈ l, g x = some (v x)) → l.mapM g = some (l.map v) := by
  intro l
  induction l with
  | nil => intro _; rfl
  | cons a l ih =>
    intro h
    rw [List.mapM_cons, h a List.mem_cons_self, ih (fun x hx => h x (List.mem_cons_of_mem _ hx))]
    rfl

/-- The statistic of bin `k` of the window of row `r` is the aggregation over the samples the bin names, seen from the end of the window plus the smallest border. -/
theorem stat_eq {b : List Nat} (hb : Desc b) {c : Col} {r : Nat} {w : List ℚ} (hw : windowAt c (binSteps b) r = some w) (f : List ℚ → Option ℚ) (k : Nat)
    (hk : k + 1 < b.length) :
    f ((members (edges b) w.length k).map (fun i => w.getD i 0)) = aggAt (b[k], b[k + 1]) f c ((r : Int) + ((b.headD 0 : Int) - 1)) := by
  have hne : b ≠ [] := by rintro rfl; simp at hk
  have hlen := (windowAt_some hw).1
  have hke : k + 1 < (edges b).length := by simpa [edges] using hk
  have e0 : (edges b)[k] = b.headD 0 - b[k] := by simp [edges]
  have e1 : (edges b)[k + 1] = b.headD 0 - b[k + 1] := by simp [edges]
  have h1 := le_head hb b[k] (List.getElem_mem _)
  have h2 := last_le hb b[k + 1] (List.getElem_mem _)
  have h3 : b[k + 1] < b[k] := List.pairwise_iff_getElem.1 hb k (k + 1) (by omega) hk (by omega)
  have hs : binSteps b = b.headD 0 - b.getLastD 0 := rfl
  rw [members_eq (edges b) (edges_pairwise hb) w.length k hke (by rw [edges_last hne]; omega) (by rw [e1]; omega), e0, e1]
  unfold aggAt
  have hm : ((List.range (b[k] - b[k + 1])).map (fun (j : Nat) => (r : Int) + ((b.headD 0 : Int) - 1) - (b[k + 1] : Nat) - (b[k] - b[k + 1] : Nat) + 1 + j)).mapM (sample c)
      = some ((List.range' (b.headD 0 - b[k]) (b.headD 0 - b[k + 1] - (b.headD 0 - b[k]))).map (fun i => w.getD i 0)) := by
    rw [show b.headD 0 - b[k + 1] - (b.headD 0 - b[k]) = b[k] - b[k + 1] by omega, List.range'_eq_map_range, List.map_map]
    rw [List.mapM_map]
    apply mapM_some
    intro j hj
    have hj' := List.mem_range.1 hj
    have := (sample_window hw (b.headD 0 - b[k] + j) (by omega)).1
    simp only [Function.comp_apply]
    rw [← this]
    congr 1
    omega
  rw [hm]
  rfl

theorem lookup_place (R : List Nat) (v : Col) (hR : R.Nodup) (hl : R.length = v.length) (t : Nat) :
    ((R.zip v).lookup t).join = if t ∈ R then (v[R.idxOf t]?).join else none := by
  induction R generalizing v with
  | nil => simp
  | cons a R ih =>
    cases v with
    | nil => simp at hl
    | cons x v =>
      obtain ⟨h1, h2⟩ := List.nodup_cons.1 hR
      rw [List.zip_cons_cons, List.lookup_cons]
      by_cases ht : t = a
      · subst ht
        simp
      · have : (t == a) = false := by simpa using ht
        simp only [this]
        rw [ih v h2 (by simpa using hl)]
        have e : (a :: R).idxOf t = R.idxOf t + 1 := by rw [List.idxOf_cons_ne _ (fun h => ht h.symm)]
        rw [e]
        simp [ht]

theorem shift_sample (l : Int) (v : Col) (i : Nat) (hi : i < v.length) : ((shift l v)[i]?).join = sample v ((i : Int) - l) := by
  unfold shift
  rw [List.getElem?_map, List.getElem?_range hi]
  rfl

end PyF.BinFlat
