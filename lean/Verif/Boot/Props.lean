import Verif.Boot.Model
import Verif.Hybrid.Lemmas
import Mathlib.Tactic.Ring
import Mathlib.Tactic.Linarith
import Mathlib.Tactic.FieldSimp
import Mathlib.Data.List.Nodup

namespace PyF.Boot
open PyF

/-! ### C176: bootstrap -/

/-- Labels of a series. -/
def labelsOf (series : List (Nat × ℚ)) : List Nat := series.map Prod.fst

/-- A draw takes its labels from the series. -/
def FromIndex (series : List (Nat × ℚ)) (samples : List (List Nat)) : Prop := ∀ s ∈ samples, ∀ l ∈ s, l ∈ labelsOf series

/-- The last size at which the statistics are taken: 100, 600, 1100, …, below the number of resamples. -/
def IsLast (nSampling m : Nat) : Prop := 100 ≤ m ∧ m % 500 = 100 ∧ m < nSampling ∧ nSampling ≤ m + 500

theorem mem_labels (series : List (Nat × ℚ)) (l : Nat) : (series.any (fun r => r.1 == l)) = true ↔ l ∈ labelsOf series := by
  unfold labelsOf
  rw [List.any_eq_true, List.mem_map]
  simp

theorem loc_ok (series : List (Nat × ℚ)) (s : List Nat) (h : ∀ l ∈ s, l ∈ labelsOf series) :
    loc series s = .ok (s.flatMap (fun l => (series.filter (fun r => r.1 == l)).map Prod.snd)) := by
  unfold loc
  rw [if_pos]
  rw [List.all_eq_true]
  exact fun l hl => (mem_labels series l).2 (h l hl)

theorem mapM_all_ok {α β : Type} (f : α → Except PyErr β) (g : α → β) (l : List α) (h : ∀ a ∈ l, f a = .ok (g a)) : l.mapM f = .ok (l.map g) := by
  induction l with
  | nil => rfl
  | cons a l ih =>
    rw [List.mapM_cons, h a (by simp), ih (fun b hb => h b (List.mem_cons_of_mem _ hb))]
    rfl

theorem filter_label (labels : List Nat) (hn : labels.Nodup) (val : Nat → ℚ) (l : Nat) (hl : l ∈ labels) :
    ((labels.map (fun (k : Nat) => (k, val k))).filter (fun r => r.1 == l)).map Prod.snd = [val l] := by
  induction labels with
  | nil => cases hl
  | cons a labels ih =>
    rw [List.nodup_cons] at hn
    rw [List.map_cons, List.filter_cons]
    by_cases h : a = l
    · subst h
      have : (labels.map (fun (k : Nat) => (k, val k))).filter (fun r => r.1 == a) = [] := by
        rw [List.filter_eq_nil_iff]
        intro r hr
        obtain ⟨k, hk, rfl⟩ := List.mem_map.1 hr
        simp only [beq_iff_eq]
        rintro rfl
        exact hn.1 hk
      simp [this]
    · rw [if_neg (by simpa using h)]
      exact ih hn.2 ((List.mem_cons.1 hl).resolve_left (Ne.symm h))

theorem loc_unique (labels : List Nat) (hn : labels.Nodup) (val : Nat → ℚ) (s : List Nat) (hs : ∀ l ∈ s, l ∈ labels) :
    loc (labels.map (fun (k : Nat) => (k, val k))) s = .ok (s.map val) := by
  have hlab : labelsOf (labels.map (fun (k : Nat) => (k, val k))) = labels := by
    unfold labelsOf
    rw [List.map_map]
    exact List.map_id' labels
  rw [loc_ok _ _ (by rw [hlab]; exact hs)]
  congr 1
  induction s with
  | nil => rfl
  | cons l s ih =>
    rw [List.flatMap_cons, filter_label labels hn val l (hs l (by simp)), ih (fun k hk => hs k (List.mem_cons_of_mem _ hk))]
    rfl

theorem sampleAt_last (n : Nat) (h : 100 < n) : ∃ m pre, sampleAt n = pre ++ [m] ∧ IsLast n m := by
  unfold sampleAt
  obtain ⟨k, hk⟩ : ∃ k, (n - 100 + 499) / 500 = k + 1 := ⟨(n - 100 + 499) / 500 - 1, by omega⟩
  rw [hk, List.range_succ, List.map_append]
  refine ⟨100 + 500 * k, (List.range k).map (fun (k : Nat) => 100 + 500 * k), rfl, ?_⟩
  unfold IsLast
  omega

theorem last_unique (n m m' : Nat) (h : IsLast n m) (h' : IsLast n m') : m = m' := by
  unfold IsLast at h h'
  omega

theorem bootstrap_last (series : List (Nat × ℚ)) (f : List ℚ → ℚ) (samples : List (List Nat)) (n m : Nat) (g : List Nat → List ℚ) (hm : IsLast n m)
    (hg : ∀ s ∈ samples, loc series s = .ok (g s)) :
    bootstrap series f samples n = .ok (mean ((samples.take m).map (fun s => f (g s))), var ((samples.take m).map (fun s => f (g s)))) := by
  have hst : ∀ k, statsOf series f samples k = .ok ((samples.take k).map (fun s => f (g s))) := by
    intro k
    unfold statsOf
    apply mapM_all_ok
    intro s hs
    rw [hg s (List.mem_of_mem_take hs)]
  have hsum : ∀ ns, summary series f samples ns = .ok (ns.map (fun (k : Nat) => (mean ((samples.take k).map (fun s => f (g s))), var ((samples.take k).map (fun s => f (g s)))))) := by
    intro ns
    unfold summary
    apply mapM_all_ok
    intro k _
    rw [hst k]
  obtain ⟨m', pre, hp, hm'⟩ := sampleAt_last n (by unfold IsLast at hm; omega)
  have := last_unique n m m' hm hm'
  subst this
  unfold bootstrap
  rw [hsum, hp, List.map_append, List.map_cons, List.map_nil]
  simp

theorem mean_mul (l : List ℚ) (hl : l ≠ []) : mean l * l.length = l.sum := by
  have : (l.length : ℚ) ≠ 0 := by exact_mod_cast (List.length_pos_iff.2 hl).ne'
  unfold mean
  field_simp

theorem var_mul (l : List ℚ) (hl : l ≠ []) : var l * l.length = (l.map (fun z => (z - mean l) ^ 2)).sum := by
  have : (l.length : ℚ) ≠ 0 := by exact_mod_cast (List.length_pos_iff.2 hl).ne'
  unfold var
  field_simp

/-- C176 (value): for a series without repeated labels the result is the mean and the population variance of the statistic over the first `m` resamples, `m` being the largest of
100, 600, 1100, … below `n_sampling`. -/
theorem C176_value (labels : List Nat) (hn : labels.Nodup) (val : Nat → ℚ) (f : List ℚ → ℚ) (samples : List (List Nat)) (n m : Nat) (hlen : samples.length = n)
    (hs : ∀ s ∈ samples, ∀ l ∈ s, l ∈ labels) (hm : IsLast n m) :
    ∃ r, bootstrap (labels.map (fun (k : Nat) => (k, val k))) f samples n = .ok r ∧
      r.1 * m = ((samples.take m).map (fun s => f (s.map val))).sum ∧ r.2 * m = ((samples.take m).map (fun s => (f (s.map val) - r.1) ^ 2)).sum := by
  refine ⟨_, bootstrap_last _ f samples n m (fun s => s.map val) hm (fun s hs' => loc_unique labels hn val s (hs s hs')), ?_, ?_⟩
  · have hne : (samples.take m).map (fun s => f (s.map val)) ≠ [] := by
      intro e
      have := congrArg List.length e
      unfold IsLast at hm
      rw [List.length_map, List.length_take, hlen, List.length_nil] at this
      omega
    have := mean_mul _ hne
    rw [List.length_map, List.length_take, hlen, min_eq_left (by unfold IsLast at hm; omega)] at this
    exact this
  · have hne : (samples.take m).map (fun s => f (s.map val)) ≠ [] := by
      intro e
      have := congrArg List.length e
      unfold IsLast at hm
      rw [List.length_map, List.length_take, hlen, List.length_nil] at this
      omega
    have := var_mul _ hne
    rw [List.length_map, List.length_take, hlen, min_eq_left (by unfold IsLast at hm; omega), List.map_map] at this
    exact this

/-- C176 (waste, defect): the resamples after the `m`-th, at least one and at most 500, are drawn and never used. -/
theorem C176_unused (series : List (Nat × ℚ)) (f : List ℚ → ℚ) (samples samples' : List (List Nat)) (n m : Nat) (hm : IsLast n m) (hs : FromIndex series samples)
    (hs' : FromIndex series samples') (h : samples.take m = samples'.take m) :
    bootstrap series f samples n = bootstrap series f samples' n ∧ 1 ≤ n - m ∧ n - m ≤ 500 := by
  refine ⟨?_, by unfold IsLast at hm; omega, by unfold IsLast at hm; omega⟩
  rw [bootstrap_last series f samples n m _ hm (fun s hh => loc_ok series s (hs s hh)), bootstrap_last series f samples' n m _ hm (fun s hh => loc_ok series s (hs' s hh)), h]

/-- C176 (which size): there is exactly one such `m` when there are more than 100 resamples; the default of 4000 gives 3600. -/
theorem C176_size (n : Nat) (h : 100 < n) : (∃ m, IsLast n m ∧ ∀ m', IsLast n m' → m' = m) ∧ IsLast 4000 3600 := by
  obtain ⟨m, -, -, hm⟩ := sampleAt_last n h
  exact ⟨⟨m, hm, fun m' h' => last_unique n m' m h' hm⟩, by unfold IsLast; omega⟩

/-- C176 (few, defect): with 100 resamples or fewer the call is a KeyError. -/
theorem C176_few (series : List (Nat × ℚ)) (f : List ℚ → ℚ) (samples : List (List Nat)) (n : Nat) (h : n ≤ 100) : bootstrap series f samples n = .error .keyError := by
  have : sampleAt n = [] := by
    unfold sampleAt
    have : (n - 100 + 499) / 500 = 0 := by omega
    rw [this]
    rfl
  unfold bootstrap
  rw [this]
  rfl

theorem flatMap_replicate_length (g : Nat → List ℚ) (l n : Nat) : ((List.replicate n l).flatMap g).length = n * (g l).length := by
  induction n with
  | zero => simp
  | succ n ih => rw [List.replicate_succ, List.flatMap_cons, List.length_append, ih]; ring

theorem filter_length_count (series : List (Nat × ℚ)) (l : Nat) : ((series.filter (fun r => r.1 == l)).map Prod.snd).length = (labelsOf series).count l := by
  unfold labelsOf
  rw [List.length_map, List.count, List.countP_map, List.countP_eq_length_filter]
  rfl

/-- C176 (repeated labels, defect): every resample of `n` labels has `n` values iff the labels of the series are distinct: `loc` takes all the values of a label. -/
theorem C176_size_iff (series : List (Nat × ℚ)) :
    (∀ s : List Nat, s.length = series.length → (∀ l ∈ s, l ∈ labelsOf series) → ∃ v, loc series s = .ok v ∧ v.length = series.length) ↔ (labelsOf series).Nodup := by
  constructor
  · intro H
    rw [List.nodup_iff_count_le_one]
    intro l
    by_cases hl : l ∈ labelsOf series
    · obtain ⟨v, hv, hlen⟩ := H (List.replicate series.length l) (List.length_replicate) (fun k hk => by rw [List.eq_of_mem_replicate hk]; exact hl)
      rw [loc_ok _ _ (fun k hk => by rw [List.eq_of_mem_replicate hk]; exact hl)] at hv
      cases hv
      rw [flatMap_replicate_length, filter_length_count] at hlen
      have hpos : 0 < series.length := by
        have := List.length_pos_of_mem hl
        unfold labelsOf at this
        rwa [List.length_map] at this
      have : (labelsOf series).count l = 1 := Nat.eq_of_mul_eq_mul_left hpos (by omega)
      omega
    · rw [List.count_eq_zero_of_not_mem hl]
      omega
  · intro hn s hs hl
    refine ⟨_, loc_ok _ _ hl, ?_⟩
    rw [← hs]
    clear hs
    induction s with
    | nil => rfl
    | cons k s ih =>
      rw [List.flatMap_cons, List.length_append, ih (fun a ha => hl a (List.mem_cons_of_mem _ ha)), filter_length_count,
        List.count_eq_one_of_mem hn (hl k (by simp)), List.length_cons]
      omega

end PyF.Boot
