import Verif.Metrics.Lemmas

namespace PyF.Metrics
open PyF

variable {L : Type} [DecidableEq L]

/-! ### C58: point metrics -/

/-- The three point metrics. -/
inductive Point | rmse | mape | nmae (inter : Bool)

/-- The aggregated error table of a point metric (for `rmse` before the root). -/
def Point.run (p : Point) (n m : Nat) (agg : List L) (x t : Table) : Except PyErr (Grouped L) :=
  match p with
  | .rmse => Metrics.mse n m agg x t
  | .mape => Metrics.mape n m agg x t
  | .nmae inter => Metrics.nmae n m agg inter x t

/-- Mean of the absolute observations of a row. -/
def meanAbs (m : Nat) (t : Table) (i : Nat) : ℚ := (∑ j ∈ Finset.range m, |t i j|) / m

/-- The error of a cell, as documented for each metric: squared error; absolute error relative to the observation; absolute error
relative to the mean absolute observation of the row plus 1e-12 and, with inter-normalisation, a hundredth of the median over the rows of
these means. -/
def Point.cell (p : Point) (n m : Nat) (x t : Table) (i j : Nat) : ℚ :=
  match p with
  | .rmse => (x i j - t i j) ^ 2
  | .mape => |x i j - t i j| / (|t i j| + 1 / 100000)
  | .nmae inter => |x i j - t i j| / (meanAbs m t i + ((if inter then Quantile.quantileVal ((List.range n).map (meanAbs m t)) (1 / 2) / 100 else 0) + 1 / 10 ^ 12))

theorem rowScale_eq (m : Nat) (t : Table) (i : Nat) : rowScale m t i = meanAbs m t i := by
  unfold rowScale avg
  rw [List.length_map, List.length_range]
  rfl

theorem offset_eq (n m : Nat) (inter : Bool) (t : Table) :
    offset n m inter t = (if inter then Quantile.quantileVal ((List.range n).map (meanAbs m t)) (1 / 2) / 100 else 0) + 1 / 10 ^ 12 := by
  unfold offset
  have : (fun (i : Nat) => rowScale m t i) = meanAbs m t := funext (rowScale_eq m t)
  rw [this]
  split
  · ring
  · norm_num

theorem run_eq (p : Point) (n m : Nat) (hn : 1 ≤ n) (agg : List L) (x t : Table) : p.run n m agg x t = aggregate n m agg (p.cell n m x t) := by
  cases p with
  | rmse => rfl
  | mape =>
    unfold Point.run Metrics.mape
    apply aggregate_congr
    intro i j
    have h : (0 : ℚ) < |t i j| + 1 / 100000 := by have := abs_nonneg (t i j); linarith
    unfold Point.cell err
    rw [abs_div, abs_of_pos h]
  | nmae inter =>
    unfold Point.run Metrics.nmae
    apply aggregate_congr
    intro i j
    have h : 0 < rowScale m t i + offset n m inter t := by
      have := rowScale_nonneg m t i
      have := offset_pos n m hn inter t
      linarith
    unfold Point.cell err
    rw [abs_div, abs_of_pos h, rowScale_eq, offset_eq]

/-- C58 (aggregation): a metric aggregates over the rows if there are as many rows as labels — also if there are as many columns —, else over
the columns if there are as many columns as labels, else it fails. The entry of a label times the number of its positions is
the sum of the errors of the cells with that label. -/
theorem C58_aggregation (p : Point) (n m : Nat) (hn : 1 ≤ n) (agg : List L) (x t : Table) :
    (agg.length = n → ∃ f, p.run n m agg x t = .ok (.overRows f) ∧ ∀ l ∈ agg, ∀ j, f l j * (agg.count l : ℚ) = ∑ i ∈ Finset.range n, if agg[i]? = some l then p.cell n m x t i j else 0) ∧
      (agg.length ≠ n → agg.length = m → ∃ f, p.run n m agg x t = .ok (.overCols f) ∧ ∀ l ∈ agg, ∀ i, f l i * (agg.count l : ℚ) = ∑ j ∈ Finset.range m, if agg[j]? = some l then p.cell n m x t i j else 0) ∧
      (agg.length ≠ n → agg.length ≠ m → p.run n m agg x t = .error .valueError) := by
  rw [run_eq p n m hn]
  obtain ⟨h1, h2⟩ := aggregate_spec n m agg (p.cell n m x t)
  have hcount : ∀ l, (members agg l).length = agg.count l := by
    intro l
    unfold members
    rw [← List.countP_eq_length_filter, List.count_eq_countP]
    clear h1 h2
    induction agg using List.reverseRecOn with
    | nil => rfl
    | append_singleton agg a ih =>
      rw [List.length_append, List.length_singleton, List.range_succ, List.countP_append, List.countP_append, List.countP_singleton, List.countP_singleton]
      congr 1
      · rw [← ih]
        apply List.countP_congr
        intro i hi
        rw [List.getElem?_append_left (List.mem_range.1 hi)]
      · rw [List.getElem?_append_right (le_refl _), Nat.sub_self, List.getElem?_cons_zero]
        simp
  have hsum : ∀ (l : L) (g : Nat → ℚ), l ∈ agg → avg ((members agg l).map g) * (agg.count l : ℚ) = ∑ k ∈ Finset.range agg.length, if agg[k]? = some l then g k else 0 := by
    intro l g hl
    unfold avg
    have h0 : (((members agg l).map g).length : ℚ) = (agg.count l : ℚ) := by rw [List.length_map, hcount]
    have hne : (agg.count l : ℚ) ≠ 0 := by exact_mod_cast (List.count_pos_iff.2 hl).ne'
    rw [h0, div_mul_cancel₀ _ hne]
    unfold members
    clear h0 hne
    have : ∀ ks : List Nat, ((ks.filter (fun (i : Nat) => decide (agg[i]? = some l))).map g).sum = (ks.map (fun (k : Nat) => if agg[k]? = some l then g k else 0)).sum := by
      intro ks
      induction ks with
      | nil => rfl
      | cons k ks ih =>
        rw [List.filter_cons, List.map_cons, List.sum_cons, ← ih]
        by_cases h : agg[k]? = some l
        · rw [if_pos (decide_eq_true h), if_pos h, List.map_cons, List.sum_cons]
        · rw [if_neg (by simpa using h), if_neg h, zero_add]
    rw [this]
    rfl
  refine ⟨?_, ?_, ?_⟩
  · intro h
    obtain ⟨g, e1, e2, _, e4⟩ := h1 (Or.inl h.symm)
    obtain ⟨f, rfl⟩ := e2 h.symm
    refine ⟨f, e1, ?_⟩
    intro l hl j
    have := e4 l j
    simp only [Grouped.at] at this
    rw [this, hsum l _ hl, h]
    apply Finset.sum_congr rfl
    intro i _
    simp only [pick, if_pos h.symm]
  · intro h h'
    obtain ⟨g, e1, _, e3, e4⟩ := h1 (Or.inr h'.symm)
    obtain ⟨f, rfl⟩ := e3 (fun hh => h hh.symm)
    refine ⟨f, e1, ?_⟩
    intro l hl j
    have := e4 l j
    simp only [Grouped.at] at this
    rw [this, hsum l _ hl, h']
    apply Finset.sum_congr rfl
    intro i _
    simp only [pick, if_neg (Ne.symm h)]
  · intro h h'
    exact h2 (fun hh => by rcases hh with hh | hh <;> omega)

theorem cell_nonneg (p : Point) (n m : Nat) (hn : 1 ≤ n) (x t : Table) (i j : Nat) : 0 ≤ p.cell n m x t i j := by
  cases p with
  | rmse => exact sq_nonneg _
  | mape => exact div_nonneg (abs_nonneg _) (by have := abs_nonneg (t i j); linarith)
  | nmae inter =>
    refine div_nonneg (abs_nonneg _) ?_
    rw [← rowScale_eq, ← offset_eq]
    have := rowScale_nonneg m t i
    have := offset_pos n m hn inter t
    linarith

theorem cell_zero_iff (p : Point) (n m : Nat) (hn : 1 ≤ n) (x t : Table) (i j : Nat) : p.cell n m x t i j = 0 ↔ x i j = t i j := by
  cases p with
  | rmse =>
    unfold Point.cell
    rw [sq_eq_zero_iff, sub_eq_zero]
  | mape =>
    unfold Point.cell
    have h : (|t i j| + 1 / 100000 : ℚ) ≠ 0 := by have := abs_nonneg (t i j); linarith
    rw [div_eq_zero_iff, or_iff_left h, abs_eq_zero, sub_eq_zero]
  | nmae inter =>
    simp only [Point.cell]
    rw [← rowScale_eq, ← offset_eq]
    have h : (rowScale m t i + offset n m inter t : ℚ) ≠ 0 := by
      have := rowScale_nonneg m t i
      have := offset_pos n m hn inter t
      linarith
    rw [div_eq_zero_iff, or_iff_left h, abs_eq_zero, sub_eq_zero]

/-- C58 (non-negative, zero iff perfect): all entries are non-negative; the entry of an occurring label is zero iff forecasts and
observations agree on all the cells aggregated into it. -/
theorem C58_zero_iff_perfect (p : Point) (n m : Nat) (hn : 1 ≤ n) (agg : List L) (x t : Table) (g : Grouped L) (h : p.run n m agg x t = .ok g) :
    (∀ l c, 0 ≤ g.at l c) ∧
      (∀ l ∈ agg, ∀ c, g.at l c = 0 ↔ ∀ k : Nat, agg[k]? = some l → (agg.length = n → x k c = t k c) ∧ (agg.length ≠ n → x c k = t c k)) := by
  rw [run_eq p n m hn] at h
  obtain ⟨h1, h2⟩ := aggregate_spec n m agg (p.cell n m x t)
  have hok : n = agg.length ∨ m = agg.length := by
    by_contra hc
    rw [h2 hc] at h
    cases h
  obtain ⟨g', e1, _, _, e4⟩ := h1 hok
  rw [h] at e1
  cases e1
  have hpick : ∀ k c, 0 ≤ pick n agg (p.cell n m x t) k c := by
    intro k c
    unfold pick
    split <;> exact cell_nonneg p n m hn x t _ _
  constructor
  · intro l c
    rw [e4]
    apply avg_nonneg
    intro y hy
    obtain ⟨k, _, rfl⟩ := List.mem_map.1 hy
    exact hpick k c
  · intro l hl c
    rw [e4, avg_eq_zero_iff]
    · constructor
      · intro hz k hk
        have := hz _ (List.mem_map.2 ⟨k, mem_members.2 hk, rfl⟩)
        unfold pick at this
        constructor
        · intro hn'
          rw [if_pos hn'.symm] at this
          exact (cell_zero_iff p n m hn x t _ _).1 this
        · intro hn'
          rw [if_neg (fun hh => hn' hh.symm)] at this
          exact (cell_zero_iff p n m hn x t _ _).1 this
      · intro hz y hy
        obtain ⟨k, hk, rfl⟩ := List.mem_map.1 hy
        obtain ⟨a, b⟩ := hz k (mem_members.1 hk)
        unfold pick
        split
        · rename_i hh; exact (cell_zero_iff p n m hn x t _ _).2 (a hh.symm)
        · rename_i hh; exact (cell_zero_iff p n m hn x t _ _).2 (b (fun h => hh h.symm))
    · intro hnil
      exact members_ne_nil hl (List.map_eq_nil_iff.1 hnil)
    · intro y hy
      obtain ⟨k, _, rfl⟩ := List.mem_map.1 hy
      exact hpick k c

/-- C58 (rmse): symmetric in forecast and observation, and unchanged by adding the same table to both. -/
theorem C58_rmse_symmetric (n m : Nat) (agg : List L) (x t s : Table) :
    mse n m agg x t = mse n m agg t x ∧ mse n m agg (fun i j => x i j + s i j) (fun i j => t i j + s i j) = mse n m agg x t := by
  unfold mse
  constructor <;> apply aggregate_congr <;> intro i j <;> unfold squerr err <;> ring

/-- C58 (rmse units): scaling both by `a` scales the rmse by `|a|`. -/
theorem C58_rmse_scale (n m : Nat) (agg : List L) (x t : Table) (a : ℚ) (g g' : Grouped L) (h : mse n m agg x t = .ok g)
    (h' : mse n m agg (fun i j => a * x i j) (fun i j => a * t i j) = .ok g') : ∀ l c, root (g'.at l c) = |(a : ℝ)| * root (g.at l c) := by
  unfold mse at h h'
  obtain ⟨h1, h2⟩ := aggregate_spec n m agg (squerr x t)
  have hok : n = agg.length ∨ m = agg.length := by
    by_contra hc
    rw [h2 hc] at h
    cases h
  obtain ⟨g1, e1, _, _, e4⟩ := h1 hok
  rw [h] at e1
  cases e1
  obtain ⟨g2, f1, _, _, f4⟩ := (aggregate_spec n m agg (squerr (fun i j => a * x i j) (fun i j => a * t i j))).1 hok
  rw [h'] at f1
  cases f1
  intro l c
  have hq : g'.at l c = a ^ 2 * g.at l c := by
    rw [e4, f4]
    unfold avg
    rw [List.length_map, List.length_map, ← mul_div_assoc, ← List.sum_map_mul_left]
    congr 2
    apply List.map_congr_left
    intro k _
    unfold pick squerr err
    split <;> ring
  unfold root
  rw [hq]
  push_cast
  rw [Real.sqrt_mul (sq_nonneg _), Real.sqrt_sq_eq_abs]

/-! ### The scorer (C101) -/

theorem members_replicate (k : Nat) (c : ℚ) : members (List.replicate k c) c = List.range k := by
  unfold members
  rw [List.length_replicate, List.filter_eq_self]
  intro i hi
  simp [List.mem_range.1 hi]

/-- C101: the score of `make_scorer(rmse)` is the mean over the rows of the root of the mean over the steps — unless there are as many rows
as steps: then it is the mean over the steps of the root of the mean over the rows. -/
theorem C101_scorer_value (n m : Nat) (x t : Table) :
    (n ≠ m → rmseScorer n m x t = .ok ((∑ i ∈ Finset.range n, Real.sqrt ((∑ j ∈ Finset.range m, ((x i j : ℝ) - t i j) ^ 2) / m)) / n)) ∧
      (n = m → rmseScorer n m x t = .ok ((∑ j ∈ Finset.range m, Real.sqrt ((∑ i ∈ Finset.range n, ((x i j : ℝ) - t i j) ^ 2) / n)) / m)) := by
  have hcast : ∀ (k : Nat) (f : Nat → ℚ), root (avg ((List.range k).map f)) = Real.sqrt ((∑ j ∈ Finset.range k, (f j : ℝ)) / k) := by
    intro k f
    unfold root avg
    rw [List.length_map, List.length_range]
    push_cast
    congr 2
    have : ((List.range k).map f).sum = ∑ j ∈ Finset.range k, f j := rfl
    rw [this]
    exact map_sum (Rat.castHom ℝ) f _
  constructor
  · intro hne
    unfold rmseScorer mse aggregate choseAxis
    rw [List.length_replicate, if_neg hne, if_neg (by omega), if_pos rfl]
    simp only
    congr 2
    have : ∀ i : Nat, root (avg ((members (List.replicate m (0 : ℚ)) 0).map (fun (j : Nat) => squerr x t i j))) = Real.sqrt ((∑ j ∈ Finset.range m, ((x i j : ℝ) - t i j) ^ 2) / m) := by
      intro i
      rw [members_replicate, hcast]
      unfold squerr err
      push_cast
      rfl
    have h2 : ((List.range n).map (fun (i : Nat) => root (avg ((members (List.replicate m (0 : ℚ)) 0).map (fun (j : Nat) => squerr x t i j))))).sum =
        ∑ i ∈ Finset.range n, root (avg ((members (List.replicate m (0 : ℚ)) 0).map (fun (j : Nat) => squerr x t i j))) := rfl
    rw [h2]
    exact Finset.sum_congr rfl (fun i _ => this i)
  · intro he
    unfold rmseScorer mse aggregate choseAxis
    rw [List.length_replicate, if_pos he, if_pos rfl]
    simp only
    congr 2
    have : ∀ j : Nat, root (avg ((members (List.replicate m (0 : ℚ)) 0).map (fun (i : Nat) => squerr x t i j))) = Real.sqrt ((∑ i ∈ Finset.range n, ((x i j : ℝ) - t i j) ^ 2) / n) := by
      intro j
      rw [members_replicate, hcast, he]
      unfold squerr err
      push_cast
      rfl
    have h2 : ((List.range m).map (fun (j : Nat) => root (avg ((members (List.replicate m (0 : ℚ)) 0).map (fun (i : Nat) => squerr x t i j))))).sum =
        ∑ j ∈ Finset.range m, root (avg ((members (List.replicate m (0 : ℚ)) 0).map (fun (i : Nat) => squerr x t i j))) := rfl
    rw [h2]
    exact Finset.sum_congr rfl (fun j _ => this j)

/-- C101 (one target): for one target and several rows the scorer of `rmse` is the mean absolute error. -/
theorem C101_single_target_is_mae (n : Nat) (hn : n ≠ 1) (x t : Table) :
    rmseScorer n 1 x t = .ok ((∑ i ∈ Finset.range n, |(x i 0 : ℝ) - t i 0|) / n) := by
  rw [(C101_scorer_value n 1 x t).1 hn]
  congr 2
  apply Finset.sum_congr rfl
  intro i _
  rw [Finset.sum_range_one, Nat.cast_one, div_one, Real.sqrt_sq_eq_abs]

/-! ### Quantile scores -/

/-- A forecast in the preferred layout: steps second, quantiles third. -/
def Preferred (q : QHat) (m : Nat) : Prop := q.d1 = m

theorem pinball_eq_max (al q y : ℚ) : pinball al (q - y) = max (al * (y - q)) ((1 - al) * (q - y)) := by
  unfold pinball above
  split
  · rw [max_eq_right (by linarith)]
  · rw [max_eq_left (by linarith)]; ring

/-- C56 (entries): in the preferred layout, with an index as long as the rows or the columns and not more levels than quantiles, the score of
the level in position `k` is the mean over the cells of the label of the pinball losses `max (α (y - q)) ((1 - α) (q - y))` of the `k`-th quantiles, and its reliability the
fraction of the cells whose observation is strictly below the quantile. -/
theorem C56_entries (n m : Nat) (agg : List L) (hagg : n = agg.length ∨ m = agg.length) (q : QHat) (hq : Preferred q m) (t : Table) (alphas : List ℚ) (hl : alphas.length ≤ q.d2) :
    ∃ out, quantileScores n m agg q t 0 alphas = .ok out ∧ out.length = alphas.length ∧
      ∀ (k : Nat) (al : ℚ), alphas[k]? = some al → ∃ s r, out[k]? = some (al, s, r) ∧
        (∀ l c, s.at l c = avg ((members agg l).map (fun i => pick n agg (fun i j => max (al * (t i j - q.val i j k)) ((1 - al) * (q.val i j k - t i j))) i c))) ∧
        (∀ l c, r.at l c = avg ((members agg l).map (fun i => pick n agg (fun i j => if t i j < q.val i j k then 1 else 0) i c))) := by
  obtain ⟨out, h1, h2, h3⟩ := quantileScores_spec n m agg hagg q t (fun k i j => q.val i j k - t i j) alphas 0 (by
    intro k _ hk
    unfold errAlpha quantileAxis
    rw [if_pos (show q.d1 = m from hq), if_neg (by omega), if_neg (by omega)])
  refine ⟨out, h1, h2, ?_⟩
  intro k al hk
  obtain ⟨s, r, e1, e2, e3⟩ := h3 k al hk
  refine ⟨s, r, e1, ?_, ?_⟩
  · intro l c
    rw [e2]
    congr 1
    apply List.map_congr_left
    intro i _
    unfold pick
    simp only [Nat.zero_add, pinball_eq_max]
  · intro l c
    rw [e3]
    congr 1
    apply List.map_congr_left
    intro i _
    unfold pick above
    simp only [Nat.zero_add, gt_iff_lt, sub_pos]

omit [DecidableEq L] in
theorem pick_forall {n : Nat} {agg : List L} {f : Table} {P : ℚ → Prop} (h : ∀ i j, P (f i j)) (k c : Nat) : P (pick n agg f k c) := by
  unfold pick
  split <;> exact h _ _

/-- C56 (proper): for levels in [0,1] all scores and the CRPS are non-negative; for levels strictly inside, a score is zero iff the
quantiles equal the observations on all the cells of the label. -/
theorem C56_proper (n m : Nat) (agg : List L) (hagg : n = agg.length ∨ m = agg.length) (q : QHat) (hq : Preferred q m) (t : Table) (alphas : List ℚ) (hl : alphas.length ≤ q.d2)
    (hin : ∀ a ∈ alphas, 0 < a ∧ a < 1) :
    (∃ cr, crps n m agg q t (some alphas) = .ok cr ∧ (∀ l c, 0 ≤ cr l c) ∧
      (alphas ≠ [] → ∀ l ∈ agg, ∀ c, cr l c = 0 ↔ ∀ k i : Nat, k < alphas.length → agg[i]? = some l → pick n agg (fun i j => q.val i j k) i c = pick n agg t i c)) := by
  obtain ⟨out, h1, h2, h3⟩ := C56_entries n m agg hagg q hq t alphas hl
  refine ⟨_, by unfold crps levels; simp only [Option.getD_some]; rw [h1], ?_, ?_⟩
  all_goals
    have hmem : ∀ x ∈ out, ∃ (k : Nat) (al : ℚ), alphas[k]? = some al ∧ out[k]? = some x := by
      intro x hx
      obtain ⟨k, hk⟩ := List.mem_iff_getElem?.1 hx
      have hlt := (List.getElem?_eq_some_iff.1 hk).1
      exact ⟨k, _, List.getElem?_eq_getElem (by omega), hk⟩
    have hs0 : ∀ x ∈ out, ∀ l c, 0 ≤ x.2.1.at l c := by
      intro x hx l c
      obtain ⟨k, al, ha, hk⟩ := hmem x hx
      obtain ⟨s, r, e1, e2, _⟩ := h3 k al ha
      rw [hk] at e1
      cases e1
      rw [e2]
      apply avg_nonneg
      intro y hy
      obtain ⟨i, _, rfl⟩ := List.mem_map.1 hy
      obtain ⟨ha0, ha1⟩ := hin al (List.mem_of_getElem? ha)
      exact pick_forall (P := fun z => 0 ≤ z) (fun i j => by rw [← pinball_eq_max]; exact pinball_nonneg (le_of_lt ha0) (le_of_lt ha1)) _ _
  · intro l c
    apply avg_nonneg
    intro y hy
    obtain ⟨x, hx, rfl⟩ := List.mem_map.1 hy
    exact hs0 x hx l c
  · intro hne l hla c
    have hone : out ≠ [] := by
      intro h
      rw [h] at h2
      exact hne (List.eq_nil_of_length_eq_zero h2.symm)
    rw [avg_eq_zero_iff (by simpa using hone)]
    · have hcell : ∀ (k : Nat) (al : ℚ), alphas[k]? = some al → ∀ i, pick n agg (fun i j => max (al * (t i j - q.val i j k)) ((1 - al) * (q.val i j k - t i j))) i c = 0 ↔ pick n agg (fun i j => q.val i j k) i c = pick n agg t i c := by
        intro k al ha i
        obtain ⟨ha0, ha1⟩ := hin al (List.mem_of_getElem? ha)
        unfold pick
        split <;> simp only [← pinball_eq_max, pinball_eq_zero ha0 ha1, sub_eq_zero]
      have hz : ∀ (k : Nat) (al : ℚ), alphas[k]? = some al → ∀ x, out[k]? = some x →
          (x.2.1.at l c = 0 ↔ ∀ i : Nat, agg[i]? = some l → pick n agg (fun i j => q.val i j k) i c = pick n agg t i c) := by
        intro k al ha x hx
        obtain ⟨s, r, e1, e2, _⟩ := h3 k al ha
        rw [hx] at e1
        cases e1
        rw [e2, avg_eq_zero_iff]
        · constructor
          · intro h i hi
            exact (hcell k al ha i).1 (h _ (List.mem_map.2 ⟨i, mem_members.2 hi, rfl⟩))
          · intro h y hy
            obtain ⟨i, hi, rfl⟩ := List.mem_map.1 hy
            exact (hcell k al ha i).2 (h i (mem_members.1 hi))
        · intro hnil
          exact members_ne_nil hla (List.map_eq_nil_iff.1 hnil)
        · intro y hy
          obtain ⟨i, _, rfl⟩ := List.mem_map.1 hy
          obtain ⟨ha0, ha1⟩ := hin al (List.mem_of_getElem? ha)
          exact pick_forall (P := fun z => 0 ≤ z) (fun i j => by rw [← pinball_eq_max]; exact pinball_nonneg (le_of_lt ha0) (le_of_lt ha1)) _ _
      constructor
      · intro h k i hk hi
        have hx : out[k]? = some (out[k]'(by omega)) := List.getElem?_eq_getElem _
        exact (hz k _ (List.getElem?_eq_getElem hk) _ hx).1 (h _ (List.mem_map.2 ⟨_, List.getElem_mem _, rfl⟩)) i hi
      · intro h y hy
        obtain ⟨x, hx, rfl⟩ := List.mem_map.1 hy
        obtain ⟨k, al, ha, hk⟩ := hmem x hx
        exact (hz k al ha x hk).2 (fun i hi => h k i (List.getElem?_eq_some_iff.1 ha).1 hi)
    · intro y hy
      obtain ⟨x, hx, rfl⟩ := List.mem_map.1 hy
      exact hs0 x hx l c

/-- C56 (minimiser): a constant forecast `v` for the observations `ys` has the least total score for the level `al` iff at most a fraction
`al` of them is below `v` and at least a fraction `al` is not above it, that is iff `v` is a sample quantile of the level. At level 1/2 the score
is half the absolute error. -/
theorem C56_minimised_by_quantile (al : ℚ) (ys : List ℚ) (v : ℚ) :
    ((∀ w, (ys.map (fun y => max (al * (y - v)) ((1 - al) * (v - y)))).sum ≤ (ys.map (fun y => max (al * (y - w)) ((1 - al) * (w - y)))).sum) ↔
      (ys.countP (fun y => decide (y < v)) : ℚ) ≤ al * ys.length ∧ al * ys.length ≤ (ys.countP (fun y => decide (y ≤ v)) : ℚ)) ∧
      ∀ y q : ℚ, 2 * max (1 / 2 * (y - q)) ((1 - 1 / 2) * (q - y)) = |q - y| := by
  simp only [← pinball_eq_max]
  exact ⟨total_min_iff al ys v, fun y q => pinball_half _⟩

/-- The forecast of the constant `v` for one level. -/
def constQ (m : Nat) (v : ℚ) : QHat := { d1 := m, d2 := 1, val := fun _ _ _ => v }

/-- C56 (minimiser, of the scores): the constant forecast `v` gets from `quantile_scores`, aggregated over all the rows, the least score at step `c` for
the level `al` iff it is a sample quantile of the level of the observations of the step. -/
theorem C56_score_minimised (n m : Nat) (hn : 1 ≤ n) (t : Table) (al : ℚ) : ∃ sc : ℚ → Grouped Unit,
    (∀ v, ∃ r, quantileScores n m (List.replicate n ()) (constQ m v) t 0 [al] = .ok [(al, sc v, r)]) ∧
      ∀ v c, (∀ w, (sc v).at () c ≤ (sc w).at () c) ↔
        (((List.range n).map (fun (i : Nat) => t i c)).countP (fun y => decide (y < v)) : ℚ) ≤ al * n ∧
          al * n ≤ (((List.range n).map (fun (i : Nat) => t i c)).countP (fun y => decide (y ≤ v)) : ℚ) := by
  have hagg : n = (List.replicate n ()).length := by simp
  have key : ∀ v, ∃ (s r : Grouped Unit), quantileScores n m (List.replicate n ()) (constQ m v) t 0 [al] = .ok [(al, s, r)] ∧
      ∀ c, s.at () c = (((List.range n).map (fun (i : Nat) => t i c)).map (fun y => max (al * (y - v)) ((1 - al) * (v - y)))).sum / n := by
    intro v
    obtain ⟨out, h1, h2, h3⟩ := C56_entries n m (List.replicate n ()) (Or.inl hagg) (constQ m v) rfl t [al] (le_refl _)
    obtain ⟨s, r, e1, e2, _⟩ := h3 0 al rfl
    refine ⟨s, r, ?_, ?_⟩
    · rw [h1]
      match out, h2, e1 with
      | [x], _, e1 => rw [← Option.some.inj e1]
    · intro c
      rw [e2]
      have hm : members (List.replicate n ()) () = List.range n := by
        unfold members
        rw [List.length_replicate, List.filter_eq_self]
        intro i hi
        simp [List.mem_range.1 hi]
      rw [hm]
      unfold avg
      rw [List.length_map, List.length_range, List.map_map]
      congr 2
      apply List.map_congr_left
      intro i _
      unfold pick
      rw [if_pos hagg]
      rfl
  choose sc r h1 h2 using key
  refine ⟨sc, fun v => ⟨r v, h1 v⟩, ?_⟩
  intro v c
  have hpos : (0 : ℚ) < n := by exact_mod_cast hn
  have h3 := (C56_minimised_by_quantile al ((List.range n).map (fun (i : Nat) => t i c)) v).1
  rw [List.length_map, List.length_range] at h3
  rw [← h3]
  apply forall_congr'
  intro w
  rw [h2, h2, div_le_div_iff_of_pos_right hpos]

/-- C57: reliabilities are between 0 and 1 and do not decrease from a level to another one whose quantiles are nowhere lower. -/
theorem C57_reliability (n m : Nat) (agg : List L) (hagg : n = agg.length ∨ m = agg.length) (q : QHat) (hq : Preferred q m) (t : Table) (alphas : List ℚ) (hl : alphas.length ≤ q.d2)
    (isFrame : Bool) :
    ∃ out, reliability n m agg isFrame q t (some alphas) false = .ok out ∧ out.length = alphas.length ∧
      (∀ (k : Nat) (al : ℚ), alphas[k]? = some al → ∃ r, out[k]? = some (al, r) ∧ (∀ l c, 0 ≤ r l c ∧ r l c ≤ 1) ∧
        (∀ l c, r l c = avg ((members agg l).map (fun i => pick n agg (fun i j => if t i j < q.val i j k then 1 else 0) i c)))) ∧
      (∀ (k k' : Nat) (x x' : ℚ × (L → Nat → ℚ)), out[k]? = some x → out[k']? = some x' → (∀ i j, q.val i j k ≤ q.val i j k') → ∀ l c, x.2 l c ≤ x'.2 l c) ∧
      (∃ out', reliability n m agg isFrame q t (some alphas) true = .ok out' ∧ out'.map (fun x => (x.1, fun l c => x.2 l c + x.1)) = out) := by
  obtain ⟨o, h1, h2, h3⟩ := C56_entries n m agg hagg q hq t alphas hl
  refine ⟨o.map (fun x => (x.1, fun l c => x.2.2.at l c - if (false : Bool) then x.1 else 0)), ?_, by simp [h2], ?_, ?_, ?_⟩
  · unfold reliability
    rw [if_neg (by simp)]
    simp only [Option.getD_some]
    rw [h1]
  · intro k al hk
    obtain ⟨s, r, e1, _, e3⟩ := h3 k al hk
    refine ⟨fun l c => r.at l c - 0, ?_, ?_, ?_⟩
    · rw [List.getElem?_map, e1]; rfl
    · intro l c
      simp only [sub_zero]
      rw [e3]
      constructor
      · apply avg_nonneg
        intro y hy
        obtain ⟨i, _, rfl⟩ := List.mem_map.1 hy
        exact pick_forall (P := fun z => 0 ≤ z) (fun i j => by split <;> norm_num) _ _
      · apply avg_le_one
        intro y hy
        obtain ⟨i, _, rfl⟩ := List.mem_map.1 hy
        exact pick_forall (P := fun z => z ≤ 1) (fun i j => by split <;> norm_num) _ _
    · intro l c
      simp only [sub_zero]
      rw [e3]
  · intro k k' x x' hx hx' hle l c
    rw [List.getElem?_map] at hx hx'
    obtain ⟨y, hy, rfl⟩ := Option.map_eq_some_iff.1 hx
    obtain ⟨y', hy', rfl⟩ := Option.map_eq_some_iff.1 hx'
    have lk := (List.getElem?_eq_some_iff.1 hy).1
    have lk' := (List.getElem?_eq_some_iff.1 hy').1
    obtain ⟨s, r, e1, _, e3⟩ := h3 k _ (List.getElem?_eq_getElem (by omega))
    obtain ⟨s', r', e1', _, e3'⟩ := h3 k' _ (List.getElem?_eq_getElem (by omega))
    rw [hy] at e1
    rw [hy'] at e1'
    cases e1
    cases e1'
    simp only [Bool.false_eq_true, if_false, sub_zero]
    rw [e3, e3']
    apply avg_map_le
    intro i _
    unfold pick
    have : ∀ i j, (if t i j < q.val i j k then (1 : ℚ) else 0) ≤ if t i j < q.val i j k' then 1 else 0 := by
      intro i j
      have := hle i j
      split
      · rw [if_pos (by linarith)]
      · split <;> norm_num
    split <;> exact this _ _
  · refine ⟨o.map (fun x => (x.1, fun l c => x.2.2.at l c - if (true : Bool) then x.1 else 0)), ?_, ?_⟩
    · unfold reliability
      rw [if_neg (by simp)]
      simp only [Option.getD_some]
      rw [h1]
    · rw [List.map_map]
      apply List.map_congr_left
      intro x _
      simp

/-- C57 (frame without levels): `reliability` of a frame without levels always fails. -/
theorem C57_frame_needs_levels (n m : Nat) (agg : List L) (q : QHat) (t : Table) (s : Bool) : reliability n m agg true q t none s = .error .indexError := by
  unfold reliability
  rw [if_pos ⟨rfl, rfl⟩]

/-- C100 (layout): an array with the quantiles second and the steps third is read as such iff there are not as many quantiles as steps; with as many
quantiles as steps, level `a` is scored with the values of step `a`: entry `j` uses the quantile of level `j` of step `a`. -/
theorem C100_layout (nq m : Nat) (v : Nat → Nat → Nat → ℚ) (t : Table) (a : Nat) (ha : a < nq) :
    (nq ≠ m → ∃ e, errAlpha { d1 := nq, d2 := m, val := v } m t a = .ok e ∧ ∀ i j, e i j = v i a j - t i j) ∧
      (nq = m → ∃ e, errAlpha { d1 := nq, d2 := m, val := v } m t a = .ok e ∧ ∀ i j, e i j = v i j a - t i j) := by
  constructor
  · intro h
    refine ⟨_, ?_, fun i j => rfl⟩
    unfold errAlpha quantileAxis
    simp only
    rw [if_neg h, if_pos rfl, if_neg (by omega), if_pos trivial]
  · intro h
    refine ⟨_, ?_, fun i j => rfl⟩
    unfold errAlpha quantileAxis
    simp only
    rw [if_pos h, if_neg (by omega), if_neg (by omega)]

/-- Evenly spaced levels from 0 to 1. -/
def Even (l : List ℚ) (nq : Nat) : Prop := l.length = nq ∧ ∀ (k : Nat) (a : ℚ), l[k]? = some a → a * ((nq : ℚ) - 1) = if nq = 1 then 0 else k

theorem even_linspace01 (nq : Nat) : Even (linspace01 nq) nq := by
  constructor
  · simp [linspace01]
  · intro k a h
    unfold linspace01 at h
    have hk : k < nq := by
      have := (List.getElem?_eq_some_iff.1 h).1
      simpa using this
    rw [List.getElem?_map, List.getElem?_range hk] at h
    have h' := Option.some.inj h
    rw [← h']
    split
    · rename_i h1; rw [h1]; norm_num
    · rename_i h1
      rw [div_mul_cancel₀]
      intro hz
      apply h1
      have : (nq : ℚ) = 1 := by linarith
      exact_mod_cast this

/-- C56 (default levels): without levels the CRPS uses as many evenly spaced levels from 0 to 1 as there are quantiles, in either layout. -/
theorem C56_default_levels (n m : Nat) (agg : List L) (q : QHat) (t : Table) :
    ∃ l, Even l (if q.d1 = m then q.d2 else q.d1) ∧ crps n m agg q t none = crps n m agg q t (some l) := by
  refine ⟨linspace01 (nQuantiles q m), ?_, rfl⟩
  have : nQuantiles q m = if q.d1 = m then q.d2 else q.d1 := by
    unfold nQuantiles quantileAxis
    split <;> simp_all
  rw [← this]
  exact even_linspace01 _

theorem quantileScores_too_many (n m : Nat) (agg : List L) (q : QHat) (t : Table) (hq : q.d1 ≠ m) :
    ∀ (alphas : List ℚ) (a : Nat), q.d1 < a + alphas.length → (a ≤ q.d1) → quantileScores n m agg q t a alphas = .error .indexError ∨ quantileScores n m agg q t a alphas = .error .valueError := by
  intro alphas
  induction alphas with
  | nil => intro a h h'; simp at h; omega
  | cons al rest ih =>
    intro a h h'
    unfold quantileScores
    by_cases ha : a = q.d1
    · left
      unfold errAlpha quantileAxis
      rw [if_neg hq, if_pos rfl, if_pos (by omega)]
    · have ih' := ih (a + 1) (by simp at h; omega) (by omega)
      unfold errAlpha quantileAxis
      rw [if_neg hq, if_pos rfl, if_neg (by omega)]
      have key : ∀ e : Table, (match aggregate n m agg (fun i j => pinball al (e i j)), aggregate n m agg (fun i j => above (e i j)) with
          | .ok s, .ok r =>
            match quantileScores n m agg q t (a + 1) rest with
            | .ok out => .ok ((al, s, r) :: out)
            | .error e => .error e
          | .error e, _ => .error e
          | _, .error e => .error e) = (.error .indexError : Except PyErr (List (ℚ × Grouped L × Grouped L))) ∨ (match aggregate n m agg (fun i j => pinball al (e i j)), aggregate n m agg (fun i j => above (e i j)) with
          | .ok s, .ok r =>
            match quantileScores n m agg q t (a + 1) rest with
            | .ok out => .ok ((al, s, r) :: out)
            | .error e => .error e
          | .error e, _ => .error e
          | _, .error e => .error e) = (.error .valueError : Except PyErr (List (ℚ × Grouped L × Grouped L))) := by
        intro e
        by_cases hagg : n = agg.length ∨ m = agg.length
        · obtain ⟨s, e1, _⟩ := (aggregate_spec n m agg (fun i j => pinball al (e i j))).1 hagg
          obtain ⟨r, e2, _⟩ := (aggregate_spec n m agg (fun i j => above (e i j))).1 hagg
          rw [e1, e2]
          rcases ih' with h | h <;> rw [h] <;> simp
        · rw [(aggregate_spec n m agg (fun i j => pinball al (e i j))).2 hagg]
          right
          rfl
      by_cases h2 : q.d2 = m
      · rw [if_pos h2]
        exact key _
      · rw [if_neg h2]
        by_cases h3 : q.d2 = 1
        · rw [if_pos h3]
          exact key _
        · rw [if_neg h3]
          right
          rfl

/-- C57 (default levels): without levels `reliability` takes as many levels as the array has entries on the last axis. In the preferred layout these are
evenly spaced levels for the quantiles; with the quantiles second and more steps than quantiles the function fails. -/
theorem C57_default_levels (n m : Nat) (agg : List L) (q : QHat) (t : Table) (s : Bool) :
    (∃ l, Even l q.d2 ∧ reliability n m agg false q t none s = reliability n m agg false q t (some l) s) ∧
      (q.d1 ≠ m → q.d1 < q.d2 → ∃ e, reliability n m agg false q t none s = .error e) := by
  constructor
  · exact ⟨_, even_linspace01 _, by unfold reliability; rw [if_neg (by simp), if_neg (by simp)]; rfl⟩
  · intro h1 h2
    unfold reliability
    rw [if_neg (by simp)]
    simp only [Option.getD_none]
    rcases quantileScores_too_many n m agg q t h1 (linspace01 q.d2) 0 (by rw [(even_linspace01 q.d2).1]; omega) (by omega) with h | h <;> rw [h]
    · exact ⟨_, rfl⟩
    · exact ⟨_, rfl⟩

end PyF.Metrics
