import Verif.TreeBuild.Props
import Verif.TreeBuild.GasModel
import Mathlib.Algebra.Order.BigOperators.Group.List

namespace PyF.TreeBuild
open PyF

section gas
variable {L : Nat}

/-! ### Lemmas -/

theorem mem_uniq (idx : Nat → Fin L → Nat) (t : Nat) (s : Fin L) : idx t s ∈ uniq idx t := by
  unfold uniq
  rw [(List.perm_insertionSort _ _).mem_iff, List.mem_dedup]
  exact List.mem_map.2 ⟨s, List.mem_finRange s, rfl⟩

theorem nodup_uniq (idx : Nat → Fin L → Nat) (t : Nat) : (uniq idx t).Nodup := by
  unfold uniq
  rw [(List.perm_insertionSort _ _).nodup_iff]
  exact List.nodup_dedup _

theorem setGroup_other_time (idx : Nat → Fin L → Nat) (tab : Nat → Fin L → ℚ) {t t' u : Nat} (h : t' ≠ t) (s : Fin L) :
    setGroup idx tab t u t' s = tab t' s := by
  unfold setGroup; rw [if_neg (by tauto)]

theorem group_congr (idx : Nat → Fin L → Nat) {a b : Nat → Fin L → ℚ} (t u : Nat) (h : ∀ s, idx t s = u → a t s = b t s) :
    group idx a t u = group idx b t u := by
  unfold group
  apply List.map_congr_left
  intro s hs
  exact h s (by simpa using (List.mem_filter.1 hs).2)

theorem row_fold (idx : Nat → Fin L → Nat) (t : Nat) (us : List Nat) (hn : us.Nodup) : ∀ tab : Nat → Fin L → ℚ, ∀ t' s,
    us.foldl (fun tb u => setGroup idx tb t u) tab t' s = if t' = t ∧ idx t s ∈ us then mean (group idx tab t (idx t s)) else tab t' s := by
  induction us with
  | nil => intro tab t' s; simp
  | cons u us ih =>
    intro tab t' s
    have hn' := List.nodup_cons.1 hn
    rw [List.foldl_cons, ih hn'.2]
    by_cases ht : t' = t
    · subst ht
      by_cases hu : idx t' s = u
      · have h1 : idx t' s ∉ us := by rw [hu]; exact hn'.1
        rw [if_neg (by tauto), if_pos ⟨rfl, by simp [hu]⟩]
        unfold setGroup
        rw [if_pos ⟨rfl, hu⟩, hu]
      · by_cases hm : idx t' s ∈ us
        · rw [if_pos ⟨rfl, hm⟩, if_pos ⟨rfl, List.mem_cons_of_mem _ hm⟩]
          congr 1
          apply group_congr
          intro s' hs'
          unfold setGroup
          rw [if_neg (by rw [hs']; tauto)]
        · rw [if_neg (by tauto), if_neg (by rw [List.mem_cons]; tauto)]
          unfold setGroup
          rw [if_neg (by tauto)]
    · rw [if_neg (by tauto), if_neg (by tauto)]
      exact setGroup_other_time idx tab ht s

theorem reconcile_eq (idx : Nat → Fin L → Nat) (T : Nat) (tab : Nat → Fin L → ℚ) (t : Nat) (s : Fin L) :
    reconcile idx T tab t s = if t < T then mean (group idx tab t (idx t s)) else tab t s := by
  unfold reconcile
  induction T generalizing t s with
  | zero => simp
  | succ T ih =>
    rw [List.range_succ, List.foldl_append, List.foldl_cons, List.foldl_nil, row_fold idx T _ (nodup_uniq idx T)]
    by_cases ht : t = T
    · subst ht
      rw [if_pos ⟨rfl, mem_uniq idx t s⟩, if_pos (by omega)]
      congr 1
      apply group_congr
      intro s' _
      rw [ih]
      simp
    · rw [if_neg (by tauto), ih]
      by_cases h : t < T
      · rw [if_pos h, if_pos (by omega)]
      · rw [if_neg h, if_neg (by omega)]

/-- The table gives one value per node. -/
def Consistent (idx : Nat → Fin L → Nat) (T : Nat) (tab : Nat → Fin L → ℚ) : Prop :=
  ∀ t s t' s', t < T → t' < T → idx t s = idx t' s' → tab t s = tab t' s'

/-- Labels identify the step, as in a tree (a node has one time). -/
def Timed (idx : Nat → Fin L → Nat) (T : Nat) : Prop := ∀ t s t' s', t < T → t' < T → idx t s = idx t' s' → t = t'

/-- Every node is on the path to some leaf. -/
def Covered (idx : Nat → Fin L → Nat) (T n : Nat) : Prop := ∀ i, i < n → ∃ t s, t < T ∧ idx t s = i

theorem reconcile_consistent (idx : Nat → Fin L → Nat) (T : Nat) (ht : Timed idx T) (tab : Nat → Fin L → ℚ) : Consistent idx T (reconcile idx T tab) := by
  intro t s t' s' h1 h2 he
  have := ht t s t' s' h1 h2 he
  subst this
  rw [reconcile_eq, reconcile_eq, if_pos h1, if_pos h1, he]

theorem mem_all_entries {idx : Nat → Fin L → Nat} {T : Nat} {tab : Nat → Fin L → ℚ} {i : Nat} {v : ℚ} :
    v ∈ (List.range T).flatMap (fun (t : Nat) => group idx tab t i) ↔ ∃ t s, t < T ∧ idx t s = i ∧ tab t s = v := by
  rw [List.mem_flatMap]
  constructor
  · rintro ⟨t, ht, hv⟩
    unfold group at hv
    obtain ⟨s, hs, rfl⟩ := List.mem_map.1 hv
    exact ⟨t, s, List.mem_range.1 ht, by simpa using (List.mem_filter.1 hs).2, rfl⟩
  · rintro ⟨t, s, ht, hi, rfl⟩
    refine ⟨t, List.mem_range.2 ht, ?_⟩
    unfold group
    exact List.mem_map.2 ⟨s, List.mem_filter.2 ⟨List.mem_finRange s, by simpa using hi⟩, rfl⟩

theorem dedup_singleton_of {l : List ℚ} {v : ℚ} (hne : v ∈ l) (h : ∀ x ∈ l, x = v) : l.dedup = [v] := by
  have hv : v ∈ l.dedup := List.mem_dedup.2 hne
  have hn := List.nodup_dedup l
  have ha : ∀ x ∈ l.dedup, x = v := fun x hx => h x (List.mem_dedup.1 hx)
  match hd : l.dedup with
  | [] => rw [hd] at hv; cases hv
  | [x] => rw [hd] at ha; rw [ha x List.mem_cons_self]
  | x :: y :: r =>
    exfalso
    rw [hd] at ha hn
    have h1 := ha x List.mem_cons_self
    have h2 := ha y (List.mem_cons_of_mem _ List.mem_cons_self)
    rw [h1, h2] at hn
    exact (List.nodup_cons.1 hn).1 List.mem_cons_self

/-- `update_tree_from_scenarios` succeeds exactly when every node has a leaf below it and its entries agree. -/
theorem updateTree_ok_iff (idx : Nat → Fin L → Nat) (T : Nat) (tab : Nat → Fin L → ℚ) (n : Nat) :
    ((∃ vs, updateTree idx T tab n = .ok vs) ↔ Covered idx T n ∧ ∀ t s t' s', t < T → t' < T → idx t s = idx t' s' → idx t s < n → tab t s = tab t' s') ∧
      (∀ vs, updateTree idx T tab n = .ok vs → vs.length = n ∧ ∀ t s, t < T → idx t s < n → vs[idx t s]? = some (tab t s)) := by
  induction n with
  | zero =>
    refine ⟨⟨fun _ => ⟨fun i hi => absurd hi (Nat.not_lt_zero _), fun t s t' s' _ _ _ h => absurd h (Nat.not_lt_zero _)⟩, fun _ => ⟨[], rfl⟩⟩, ?_⟩
    intro vs h
    simp only [updateTree, Except.ok.injEq] at h
    subst h
    exact ⟨rfl, fun t s _ h => absurd h (Nat.not_lt_zero _)⟩
  | succ n ih =>
    obtain ⟨ih1, ih2⟩ := ih
    have key : ∀ vs, updateTree idx T tab (n + 1) = .ok vs → ∃ vs' v, updateTree idx T tab n = .ok vs' ∧ vs = vs' ++ [v] ∧
        ((List.range T).flatMap (fun (t : Nat) => group idx tab t n)).dedup = [v] := by
      intro vs h
      simp only [updateTree] at h
      cases hu : updateTree idx T tab n with
      | error e => rw [hu] at h; cases h
      | ok vs' =>
        rw [hu] at h
        simp only at h
        split at h
        · rename_i v hv
          simp only [Except.ok.injEq] at h
          exact ⟨vs', v, rfl, h.symm, hv⟩
        · cases h
    constructor
    · constructor
      · rintro ⟨vs, h⟩
        obtain ⟨vs', v, h1, rfl, h3⟩ := key vs h
        obtain ⟨hc, heq⟩ := ih1.1 ⟨vs', h1⟩
        have hval : ∀ t s, t < T → idx t s = n → tab t s = v := by
          intro t s ht hi
          have : tab t s ∈ ((List.range T).flatMap (fun (t : Nat) => group idx tab t n)).dedup := List.mem_dedup.2 (mem_all_entries.2 ⟨t, s, ht, hi, rfl⟩)
          rw [h3] at this
          simpa using this
        constructor
        · intro i hi
          rcases Nat.lt_or_eq_of_le (Nat.le_of_lt_succ hi) with h | h
          · exact hc i h
          · have : v ∈ ((List.range T).flatMap (fun (t : Nat) => group idx tab t n)).dedup := by rw [h3]; simp
            obtain ⟨t, s, ht, hi', _⟩ := mem_all_entries.1 (List.mem_dedup.1 this)
            exact ⟨t, s, ht, by omega⟩
        · intro t s t' s' ht ht' he hlt
          rcases Nat.lt_or_eq_of_le (Nat.le_of_lt_succ hlt) with h | h
          · exact heq t s t' s' ht ht' he h
          · rw [hval t s ht h, hval t' s' ht' (by omega)]
      · rintro ⟨hc, heq⟩
        obtain ⟨vs', h1⟩ := ih1.2 ⟨fun i hi => hc i (by omega), fun t s t' s' h1 h2 h3 h4 => heq t s t' s' h1 h2 h3 (by omega)⟩
        obtain ⟨t, s, ht, hi⟩ := hc n (by omega)
        have : ((List.range T).flatMap (fun (t : Nat) => group idx tab t n)).dedup = [tab t s] := by
          apply dedup_singleton_of (mem_all_entries.2 ⟨t, s, ht, hi, rfl⟩)
          intro x hx
          obtain ⟨t', s', ht', hi', rfl⟩ := mem_all_entries.1 hx
          exact heq t' s' t s ht' ht (by omega) (by omega)
        refine ⟨vs' ++ [tab t s], ?_⟩
        simp only [updateTree]
        rw [h1]
        simp only
        rw [this]
    · intro vs h
      obtain ⟨vs', v, h1, rfl, h3⟩ := key vs h
      obtain ⟨hl, hg⟩ := ih2 vs' h1
      refine ⟨by simp [hl], ?_⟩
      intro t s ht hlt
      rcases Nat.lt_or_eq_of_le (Nat.le_of_lt_succ hlt) with h | h
      · rw [List.getElem?_append_left (by omega)]
        exact hg t s ht h
      · rw [h, List.getElem?_append_right (by omega), hl, Nat.sub_self]
        have : tab t s ∈ ((List.range T).flatMap (fun (t : Nat) => group idx tab t n)).dedup := List.mem_dedup.2 (mem_all_entries.2 ⟨t, s, ht, h, rfl⟩)
        rw [h3] at this
        have : tab t s = v := by simpa using this
        rw [this]
        rfl

/-! ### Properties -/

/-- C97 (averaging): the reconciliation replaces every entry by the mean of the entries of its node at that step, so scenarios share a
value as long as they share a node; sums over a node are kept; applying it twice changes nothing. -/
theorem C97_reconcile (idx : Nat → Fin L → Nat) (T : Nat) (tab : Nat → Fin L → ℚ) :
    (∀ t s, t < T → reconcile idx T tab t s = mean (group idx tab t (idx t s))) ∧
      (∀ t u, (group idx (reconcile idx T tab) t u).sum = (group idx tab t u).sum) ∧
      reconcile idx T (reconcile idx T tab) = reconcile idx T tab := by
  have hsum : ∀ t u, (group idx (reconcile idx T tab) t u).sum = (group idx tab t u).sum := by
    intro t u
    by_cases ht : t < T
    · have hrep : group idx (reconcile idx T tab) t u = List.replicate (group idx tab t u).length (mean (group idx tab t u)) := by
        unfold group
        rw [List.length_map]
        have h2 := List.map_eq_replicate_iff (l := (List.finRange L).filter (fun s => decide (idx t s = u))) (f := reconcile idx T tab t) (b := mean (group idx tab t u))
        apply h2.2
        intro s hs
        rw [reconcile_eq, if_pos ht]
        have : idx t s = u := by simpa using (List.mem_filter.1 hs).2
        rw [this]
      rw [hrep, List.sum_replicate, nsmul_eq_mul]
      unfold mean
      by_cases h0 : (group idx tab t u).length = 0
      · rw [h0, List.eq_nil_of_length_eq_zero h0]; simp
      · have : ((group idx tab t u).length : ℚ) ≠ 0 := by exact_mod_cast h0
        field_simp
    · congr 1
      apply group_congr
      intro s _
      rw [reconcile_eq, if_neg ht]
  refine ⟨fun t s ht => by rw [reconcile_eq, if_pos ht], hsum, ?_⟩
  funext t s
  rw [reconcile_eq]
  by_cases ht : t < T
  · rw [if_pos ht, reconcile_eq, if_pos ht]
    unfold mean
    rw [hsum]
    congr 1
    simp [group]
  · rw [if_neg ht]

theorem list_mean_within {l : List ℚ} (hne : l ≠ []) {lo hi : ℚ} (h : ∀ x ∈ l, lo ≤ x ∧ x ≤ hi) : lo ≤ mean l ∧ mean l ≤ hi := by
  have hpos : (0 : ℚ) < l.length := by exact_mod_cast List.length_pos_iff.2 hne
  have h1 : (l.length : ℚ) * lo ≤ l.sum := by
    have := List.card_nsmul_le_sum l lo (fun x hx => (h x hx).1)
    rwa [nsmul_eq_mul] at this
  have h2 : l.sum ≤ (l.length : ℚ) * hi := by
    have := List.sum_le_card_nsmul l hi (fun x hx => (h x hx).2)
    rwa [nsmul_eq_mul] at this
  unfold mean
  constructor
  · rw [le_div_iff₀ hpos]; linarith
  · rw [div_le_iff₀ hpos]; linarith

/-- Envelope of the draws: `lo t ≤ draw t ≤ hi t` at every iteration. -/
def Within (T : Nat) (lo hi : Nat → ℚ) (tab : Nat → Fin L → ℚ) : Prop := ∀ t s, t < T → lo t ≤ tab t s ∧ tab t s ≤ hi t

theorem gasStep_within (g : GasIn L) (idx : Nat → Fin L → Nat) (T k : Nat) (lo hi : Nat → ℚ) (hg : ∀ r, 0 ≤ g.gain k r ∧ g.gain k r ≤ 1)
    (hd : ∀ t, t < T → lo t ≤ g.draw k t ∧ g.draw k t ≤ hi t) (tab : Nat → Fin L → ℚ) (h : Within T lo hi tab) : Within T lo hi (gasStep g idx T k tab) := by
  intro t s ht
  unfold gasStep
  rw [reconcile_eq, if_pos ht]
  apply list_mean_within
  · intro he
    have : s ∈ (List.finRange L).filter (fun s' => decide (idx t s' = idx t s)) := List.mem_filter.2 ⟨List.mem_finRange s, by simp⟩
    unfold group at he
    rw [List.map_eq_nil_iff] at he
    rw [he] at this
    cases this
  · intro x hx
    unfold group at hx
    obtain ⟨s', _, rfl⟩ := List.mem_map.1 hx
    unfold attract
    obtain ⟨a, b⟩ := h t s' ht
    obtain ⟨c, d⟩ := hd t ht
    obtain ⟨e, f⟩ := hg (ranksOf (g.order k tab) s')
    set G := g.gain k (ranksOf (g.order k tab) s')
    constructor
    · nlinarith [mul_nonneg e (sub_nonneg.2 c), mul_nonneg (sub_nonneg.2 f) (sub_nonneg.2 a)]
    · nlinarith [mul_nonneg e (sub_nonneg.2 d), mul_nonneg (sub_nonneg.2 f) (sub_nonneg.2 b)]

/-- Table after `k` iterations. -/
def gasIter (g : GasIn L) (idx : Nat → Fin L → Nat) (T : Nat) (tab : Nat → Fin L → ℚ) : Nat → Nat → Fin L → ℚ
  | 0 => tab
  | k + 1 => gasStep g idx T k (gasIter g idx T tab k)

theorem gasIter_consistent (g : GasIn L) (idx : Nat → Fin L → Nat) (T : Nat) (ht : Timed idx T) (tab : Nat → Fin L → ℚ) (h : Consistent idx T tab) (k : Nat) :
    Consistent idx T (gasIter g idx T tab k) := by
  cases k with
  | zero => exact h
  | succ k => exact reconcile_consistent idx T ht _

theorem gasLoop_spec (g : GasIn L) (idx : Nat → Fin L → Nat) (T n : Nat) (tol : ℚ) (htol : tol < 1) (ht : Timed idx T) (hc : Covered idx T n) (tab : Nat → Fin L → ℚ)
    (h : Consistent idx T tab) : ∀ (fuel k : Nat) (vals : List ℚ),
    ∃ vals', gasLoop g idx T n tol fuel k (gasIter g idx T tab k) vals = .ok (gasIter g idx T tab (k + fuel), vals') ∧
      (fuel = 0 → vals' = vals) ∧ (fuel ≠ 0 → updateTree idx T (gasIter g idx T tab (k + fuel - 1)) n = .ok vals') := by
  intro fuel
  induction fuel with
  | zero => intro k vals; exact ⟨vals, rfl, fun _ => rfl, fun h => absurd rfl h⟩
  | succ fuel ih =>
    intro k vals
    obtain ⟨vs, hvs⟩ := (updateTree_ok_iff idx T (gasIter g idx T tab k) n).1.2
      ⟨hc, fun t s t' s' h1 h2 h3 _ => gasIter_consistent g idx T ht tab h k t s t' s' h1 h2 h3⟩
    obtain ⟨vals', h1, h2, h3⟩ := ih (k + 1) vs
    refine ⟨vals', ?_, fun h => by omega, ?_⟩
    · simp only [gasLoop]
      rw [if_pos htol, hvs]
      simp only
      rw [show k + (fuel + 1) = k + 1 + fuel by omega]
      exact h1
    · intro _
      by_cases h0 : fuel = 0
      · subst h0
        rw [h2 rfl]
        simpa using hvs
      · rw [show k + (fuel + 1) - 1 = k + 1 + fuel - 1 by omega]
        exact h3 h0

/-- C97: on a tree all of whose nodes lead to a leaf, the training never fails; the tree ends up with the values of the returned
scenarios; and at every step all values remain in any interval that contains the initial ones and the scenarios drawn. -/
theorem C97_training_sound (g : GasIn L) (idx : Nat → Fin L → Nat) (T n kMax : Nat) (tol : ℚ) (ht : Timed idx T) (hc : Covered idx T n) (hn : ∀ t s, t < T → idx t s < n)
    (vals : List ℚ) (tab : Nat → Fin L → ℚ) (h0 : ∀ t s, t < T → vals[idx t s]? = some (tab t s)) (lo hi : Nat → ℚ) (hw : Within T lo hi tab)
    (hg : ∀ k r, 0 ≤ g.gain k r ∧ g.gain k r ≤ 1) (hd : ∀ k t, t < T → lo t ≤ g.draw k t ∧ g.draw k t ≤ hi t) :
    ∃ out, neuralGas g idx T n kMax tol tab vals = .ok out ∧ out.treeVals.length = n ∧
      (∀ t s, t < T → out.treeVals[idx t s]? = some (out.scens t s)) ∧ Within T lo hi out.scens := by
  have hcons : Consistent idx T tab := by
    intro t s t' s' h1 h2 he
    have a := h0 t s h1
    rw [he, h0 t' s' h2] at a
    exact (Option.some.inj a).symm
  have hres : ∃ tab' vals', gasLoop g idx T n tol kMax 0 tab vals = .ok (tab', vals') ∧ Consistent idx T tab' ∧ Within T lo hi tab' := by
    by_cases htol : tol < 1
    · obtain ⟨vals', h1, _, _⟩ := gasLoop_spec g idx T n tol htol ht hc tab hcons kMax 0 vals
      refine ⟨_, vals', h1, gasIter_consistent g idx T ht tab hcons _, ?_⟩
      rw [Nat.zero_add]
      have hall : ∀ k, Within T lo hi (gasIter g idx T tab k) := by
        intro k
        induction k with
        | zero => exact hw
        | succ k ih => exact gasStep_within g idx T k lo hi (hg k) (hd k) _ ih
      exact hall kMax
    · refine ⟨tab, vals, ?_, hcons, hw⟩
      cases kMax with
      | zero => rfl
      | succ k => simp only [gasLoop]; rw [if_neg htol]
  obtain ⟨tab', vals', h1, h2, h3⟩ := hres
  obtain ⟨tv, htv⟩ := (updateTree_ok_iff idx T tab' n).1.2 ⟨hc, fun t s t' s' a b c _ => h2 t s t' s' a b c⟩
  refine ⟨{ treeVals := tv, scens := tab', vals := vals' }, ?_, ?_, ?_, h3⟩
  · unfold neuralGas; rw [h1]; simp only; rw [htv]
  · exact ((updateTree_ok_iff idx T tab' n).2 tv htv).1
  · intro t s hts
    exact ((updateTree_ok_iff idx T tab' n).2 tv htv).2 t s hts (hn t s hts)

/-- C97 (dead ends): if some node has no leaf below it, any training with at least one iteration or none fails. -/
theorem C97_dead_end_fails (g : GasIn L) (idx : Nat → Fin L → Nat) (T n kMax : Nat) (tol : ℚ) (tab : Nat → Fin L → ℚ) (vals : List ℚ) (h : ¬ Covered idx T n) :
    neuralGas g idx T n kMax tol tab vals = .error .assertionError := by
  have hu : ∀ tab', updateTree idx T tab' n = .error .assertionError := by
    intro tab'
    have hno : ¬ ∃ vs, updateTree idx T tab' n = .ok vs := fun hx => h ((updateTree_ok_iff idx T tab' n).1.1 hx).1
    have hkind : ∀ n e, updateTree idx T tab' n = .error e → e = .assertionError := by
      intro n
      induction n with
      | zero => intro e he; simp [updateTree] at he
      | succ n ih =>
        intro e he
        simp only [updateTree] at he
        cases hx : updateTree idx T tab' n with
        | error e' => rw [hx] at he; simp only [Except.error.injEq] at he; subst he; exact ih e' hx
        | ok vs =>
          rw [hx] at he
          simp only at he
          split at he
          · cases he
          · simp only [Except.error.injEq] at he; exact he.symm
    cases hx : updateTree idx T tab' n with
    | ok vs => exact absurd ⟨vs, hx⟩ hno
    | error e => rw [hkind n e hx]
  unfold neuralGas
  cases kMax with
  | zero => simp only [gasLoop]; rw [hu]
  | succ k =>
    simp only [gasLoop]
    split
    · rename_i e he
      split at he
      · rw [hu] at he
        simp only [Except.error.injEq] at he
        rw [← he]
      · cases he
    · rename_i he
      split at he
      · rw [hu] at he
        cases he
      · rw [hu]

/-- C98 (tolerance): the tolerance never stops the training early: below 1 all `k_max` iterations are run, from 1 on none is; and the
returned values are those before the last iteration, not those of the tree. -/
theorem C98_tolerance_ignored (g : GasIn L) (idx : Nat → Fin L → Nat) (T n kMax : Nat) (tol : ℚ) (ht : Timed idx T) (hc : Covered idx T n) (hn : ∀ t s, t < T → idx t s < n)
    (vals : List ℚ) (tab : Nat → Fin L → ℚ) (h0 : ∀ t s, t < T → vals[idx t s]? = some (tab t s)) :
    ∃ out, neuralGas g idx T n kMax tol tab vals = .ok out ∧
      (tol < 1 → out.scens = gasIter g idx T tab kMax ∧ (1 ≤ kMax → ∀ t s, t < T → out.vals[idx t s]? = some (gasIter g idx T tab (kMax - 1) t s))) ∧
      (1 ≤ tol → out.scens = tab ∧ out.vals = vals) := by
  have hcons : Consistent idx T tab := by
    intro t s t' s' h1 h2 he
    have a := h0 t s h1
    rw [he, h0 t' s' h2] at a
    exact (Option.some.inj a).symm
  by_cases htol : tol < 1
  · obtain ⟨vals', h1, h2, h3⟩ := gasLoop_spec g idx T n tol htol ht hc tab hcons kMax 0 vals
    rw [Nat.zero_add] at h1 h3
    obtain ⟨tv, htv⟩ := (updateTree_ok_iff idx T (gasIter g idx T tab kMax) n).1.2
      ⟨hc, fun t s t' s' a b c _ => gasIter_consistent g idx T ht tab hcons kMax t s t' s' a b c⟩
    refine ⟨{ treeVals := tv, scens := gasIter g idx T tab kMax, vals := vals' }, ?_, ?_, fun h => absurd htol (not_lt.2 h)⟩
    · unfold neuralGas
      rw [show gasLoop g idx T n tol kMax 0 tab vals = _ from h1]
      simp only
      rw [htv]
    · intro _
      refine ⟨rfl, ?_⟩
      intro hk t s hts
      exact ((updateTree_ok_iff idx T _ n).2 vals' (h3 (by omega))).2 t s hts (hn t s hts)
  · have h1 : gasLoop g idx T n tol kMax 0 tab vals = .ok (tab, vals) := by
      cases kMax with
      | zero => rfl
      | succ k => simp only [gasLoop]; rw [if_neg htol]
    obtain ⟨tv, htv⟩ := (updateTree_ok_iff idx T tab n).1.2 ⟨hc, fun t s t' s' a b c _ => hcons t s t' s' a b c⟩
    refine ⟨{ treeVals := tv, scens := tab, vals := vals }, ?_, fun h => absurd h htol, fun _ => ⟨rfl, rfl⟩⟩
    unfold neuralGas
    rw [h1]
    simp only
    rw [htv]

/-- `order` sorts the distances, as `np.argsort`. -/
def Sorts (dist : Fin L → ℚ) (order : Equiv.Perm (Fin L)) : Prop := ∀ a b : Fin L, a ≤ b → dist (order a) ≤ dist (order b)

/-- C98 (ranks): the column in `r`-th position by distance moves with the gain of rank `order (order r)`, not `r`; the two agree for
all columns and strictly decreasing gains only if applying the sorting permutation twice is the identity. -/
theorem C98_ranks_are_not_ranks (gain : Nat → ℚ) (draw : Nat → ℚ) (tab : Nat → Fin L → ℚ) (order : Equiv.Perm (Fin L)) (hs : ∀ a b, a < b → gain b < gain a) :
    (∀ t (r : Fin L), attract gain (ranksOf order) draw tab t (order r) - tab t (order r) = gain (order (order r)) * (draw t - tab t (order r))) ∧
      ((∀ r : Fin L, gain (ranksOf order (order r)) = gain r) ↔ ∀ r, order (order r) = r) := by
  constructor
  · intro t r
    unfold attract ranksOf
    ring
  · constructor
    · intro h r
      by_contra hne
      have := h r
      unfold ranksOf at this
      rcases Nat.lt_or_gt_of_ne (fun he : ((order (order r) : Fin L) : Nat) = r => hne (Fin.ext he)) with hlt | hlt
      · have := hs _ _ hlt; linarith
      · have := hs _ _ hlt; linarith
    · intro h r
      unfold ranksOf
      rw [h r]

/-- C98 (witness): three columns where the farthest one moves with the largest gain. -/
theorem C98_farthest_moves_most : ∃ (dist : Fin 3 → ℚ) (order : Equiv.Perm (Fin 3)), Sorts dist order ∧ ranksOf order (order 2) = 0 ∧ dist (order 0) < dist (order 1) ∧ dist (order 1) < dist (order 2) ∧ ranksOf order (order 0) = 1 := by
  refine ⟨![1, 2, 0], ⟨![2, 0, 1], ![1, 2, 0], by decide, by decide⟩, ?_, by decide, by decide +kernel, by decide +kernel, ?_⟩
  · unfold Sorts; decide +kernel
  · decide

end gas

/-! ### Properties of `DiffTree` -/

section diff
variable {n L : Nat}

/-- Plain gradient descent with a fixed rate (specification). -/
def descend (grad : (Fin n → ℚ) → Fin n → ℚ) (lr : ℚ) (v : Fin n → ℚ) : Nat → Fin n → ℚ
  | 0 => v
  | k + 1 => fun i => descend grad lr v k i - grad (descend grad lr v k) i * lr

theorem dStep_lr (loss : (Fin n → ℚ) → ℚ) (grad : (Fin n → ℚ) → Fin n → ℚ) (ev : Nat) (tol : ℚ) (k : Nat) (s : DState n) :
    (dStep loss grad ev tol k s).lr = s.lr ∧ (dStep loss grad ev tol k s).vals = fun i => s.vals i - grad s.vals i * s.lr := by
  unfold dStep
  by_cases h : k % ev = 0
  · simp [h]
  · simp [h]

theorem dLoop_descend (loss : (Fin n → ℚ) → ℚ) (grad : (Fin n → ℚ) → Fin n → ℚ) (ev : Nat) (tol lr : ℚ) (v : Fin n → ℚ) : ∀ (fuel k : Nat) (s : DState n),
    s.lr = lr → s.vals = descend grad lr v k → ∃ j, j ≤ fuel ∧ (dLoop loss grad ev tol fuel k s).lr = lr ∧ (dLoop loss grad ev tol fuel k s).vals = descend grad lr v (k + j) := by
  intro fuel
  induction fuel with
  | zero => intro k s h1 h2; exact ⟨0, le_refl _, h1, h2⟩
  | succ fuel ih =>
    intro k s h1 h2
    simp only [dLoop]
    by_cases hg : s.go = true
    · rw [if_pos hg]
      obtain ⟨e1, e2⟩ := dStep_lr loss grad ev tol k s
      obtain ⟨j, hj, h3, h4⟩ := ih (k + 1) (dStep loss grad ev tol k s) (by rw [e1, h1]) (by rw [e2, h1, h2]; rfl)
      exact ⟨j + 1, by omega, h3, by rw [h4]; congr 1; omega⟩
    · rw [if_neg hg]
      exact ⟨0, by omega, h1, h2⟩

/-- C99: the learning rate never decays, whatever the losses: the values returned are those of plain gradient descent with the initial
rate after at most `k_max` steps; the tree carries the returned values; and the scenarios returned are those of the base tree,
whatever the training did. -/
theorem C99_no_decay_and_stale_scenarios (loss : (Fin n → ℚ) → ℚ) (grad : (Fin n → ℚ) → Fin n → ℚ) (idx : Nat → Fin L → Fin n) (base init : Fin n → ℚ) (lr : Option ℚ) (nScen ev kMax : Nat)
    (tol : ℚ) (hev : 1 ≤ ev) :
    ∃ out, diffTree loss grad idx base init lr nScen ev kMax tol = .ok out ∧ out.lr = lr.getD (max (1 / nScen) (1 / 10)) ∧ out.treeVals = out.vals ∧
      (∃ j, j ≤ kMax ∧ out.vals = descend grad out.lr init j) ∧ out.scens = fun t k => base (idx t k) := by
  unfold diffTree
  simp only
  rw [if_neg (by omega)]
  refine ⟨_, rfl, ?_⟩
  obtain ⟨j, hj, h1, h2⟩ := dLoop_descend loss grad ev tol (lr.getD (max (1 / nScen) (1 / 10))) init kMax 0
    { vals := init, go := decide (1 > tol), past := 1 / 1000000, lr := lr.getD (max (1 / nScen) (1 / 10)) } rfl rfl
  refine ⟨h1, rfl, ⟨j, hj, ?_⟩, rfl⟩
  simp only
  rw [h1, h2, Nat.zero_add]

/-- The loss values at the evaluations before iteration `k` (every `ev` iterations). -/
def lossAt (loss : (Fin n → ℚ) → ℚ) (grad : (Fin n → ℚ) → Fin n → ℚ) (lr : ℚ) (v : Fin n → ℚ) (k : Nat) : ℚ := loss (descend grad lr v k)

/-- Loop state invariant for `ev = 1`. -/
theorem dLoop_stop (loss : (Fin n → ℚ) → ℚ) (grad : (Fin n → ℚ) → Fin n → ℚ) (tol lr : ℚ) (v : Fin n → ℚ) : ∀ (fuel k : Nat) (s : DState n),
    s.lr = lr → s.vals = descend grad lr v k → s.go = true → ∃ j, j ≤ fuel ∧ (dLoop loss grad 1 tol fuel k s).vals = descend grad lr v (k + j) ∧
      (∀ i, i + 1 < j → exceeds (lossAt loss grad lr v (k + i)) (if i = 0 then s.past else lossAt loss grad lr v (k + i - 1)) tol = true) ∧
      (j < fuel → ∃ i, j = i + 1 ∧ exceeds (lossAt loss grad lr v (k + i)) (if i = 0 then s.past else lossAt loss grad lr v (k + i - 1)) tol = false) := by
  intro fuel
  induction fuel with
  | zero => intro k s _ h2 _; exact ⟨0, le_refl _, h2, fun i hi => by omega, fun h => by omega⟩
  | succ fuel ih =>
    intro k s h1 h2 hg
    simp only [dLoop]
    rw [if_pos hg]
    obtain ⟨e1, e2⟩ := dStep_lr loss grad 1 tol k s
    have e3 : (dStep loss grad 1 tol k s).go = exceeds (loss s.vals) s.past tol := by unfold dStep; simp [Nat.mod_one]
    have e4 : (dStep loss grad 1 tol k s).past = loss s.vals := by unfold dStep; simp [Nat.mod_one]
    have hl : loss s.vals = lossAt loss grad lr v k := by rw [h2]; rfl
    by_cases hgo : (dStep loss grad 1 tol k s).go = true
    · obtain ⟨j, hj, h3, h4, h5⟩ := ih (k + 1) (dStep loss grad 1 tol k s) (by rw [e1, h1]) (by rw [e2, h1, h2]; rfl) hgo
      refine ⟨j + 1, by omega, by rw [h3]; congr 1; omega, ?_, ?_⟩
      · intro i hi
        cases i with
        | zero =>
          rw [if_pos rfl, Nat.add_zero, ← hl, ← e3]; exact hgo
        | succ i =>
          have := h4 i (by omega)
          rw [if_neg (by omega)]
          rw [e4, hl] at this
          rw [show k + (i + 1) = k + 1 + i by omega]
          cases i with
          | zero => simpa using this
          | succ i => rw [if_neg (by omega)] at this; exact this
      · intro hjl
        obtain ⟨i, hi, hex⟩ := h5 (by omega)
        refine ⟨i + 1, by omega, ?_⟩
        rw [if_neg (by omega)]
        rw [e4, hl] at hex
        rw [show k + (i + 1) = k + 1 + i by omega]
        cases i with
        | zero => simpa using hex
        | succ i => rw [if_neg (by omega)] at hex; exact hex
    · refine ⟨1, by omega, ?_, fun i hi => by omega, fun _ => ⟨0, rfl, ?_⟩⟩
      · cases fuel with
        | zero => simp only [dLoop]; rw [e2, h1, h2]; rfl
        | succ f => simp only [dLoop]; rw [if_neg hgo, e2, h1, h2]; rfl
      · rw [if_pos rfl, Nat.add_zero, ← hl, ← e3]
        simpa using hgo

theorem exceeds_iff {l p : ℚ} (hp : 0 ≤ p) (tol : ℚ) : exceeds l p tol = true ↔ tol * p < |l - p| := by
  unfold exceeds
  by_cases h : p = 0
  · rw [if_pos h, h]
    simp
  · have hpos : 0 < p := lt_of_le_of_ne hp (Ne.symm h)
    rw [if_neg h, decide_eq_true_iff, lt_div_iff₀ hpos]

/-- C99 (stopping): with the default evaluation step, the descent stops after the first step whose starting loss differs by at most the
relative tolerance from the previous loss (the first from 1e-6), or after `k_max` steps. With a tolerance of 1 or more it does
not start. -/
theorem C99_stopping (loss : (Fin n → ℚ) → ℚ) (grad : (Fin n → ℚ) → Fin n → ℚ) (idx : Nat → Fin L → Fin n) (base init : Fin n → ℚ) (lr : ℚ) (nScen kMax : Nat) (tol : ℚ)
    (hl : ∀ v, 0 ≤ loss v) :
    ∃ out, diffTree loss grad idx base init (some lr) nScen 1 kMax tol = .ok out ∧ (1 ≤ tol → out.vals = init) ∧
      (tol < 1 → ∃ j, j ≤ kMax ∧ out.vals = descend grad lr init j ∧
        (∀ i, i + 1 < j → ∀ past, past = (if i = 0 then 1 / 1000000 else loss (descend grad lr init (i - 1))) → tol * past < |loss (descend grad lr init i) - past|) ∧
        (j < kMax → ∃ i, j = i + 1 ∧ ∀ past, past = (if i = 0 then 1 / 1000000 else loss (descend grad lr init (i - 1))) → |loss (descend grad lr init i) - past| ≤ tol * past)) := by
  unfold diffTree
  simp only
  rw [if_neg (by omega)]
  have hpast : ∀ i : Nat, 0 ≤ (if i = 0 then 1 / 1000000 else loss (descend grad lr init (i - 1))) := by
    intro i
    split
    · norm_num
    · exact hl _
  refine ⟨_, rfl, ?_, ?_⟩
  · intro h
    cases kMax with
    | zero => rfl
    | succ k =>
      have : ¬ (1 > tol) := not_lt.2 h
      simp only [dLoop, this, decide_false, Bool.false_eq_true, if_false]
  · intro h
    obtain ⟨j, h1, h2, h3, h4⟩ := dLoop_stop loss grad tol lr init kMax 0 { vals := init, go := decide (1 > tol), past := 1 / 1000000, lr := lr } rfl rfl (by simpa using h)
    simp only [Nat.zero_add, lossAt] at h2 h3 h4
    refine ⟨j, h1, h2, ?_, ?_⟩
    · intro i hi past hpa
      rw [← exceeds_iff (by rw [hpa]; exact hpast i), hpa]
      exact h3 i hi
    · intro hj
      obtain ⟨i, hi, he⟩ := h4 hj
      refine ⟨i, hi, ?_⟩
      intro past hpa
      rw [← not_lt, ← exceeds_iff (by rw [hpa]; exact hpast i), hpa, he]
      simp

end diff

end PyF.TreeBuild
