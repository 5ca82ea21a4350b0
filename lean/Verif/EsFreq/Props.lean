import Verif.EsFreq.Model
import Mathlib.Tactic.Ring
import Mathlib.Tactic.Linarith
import Mathlib.Tactic.Push

/-!
C334: which rows `ExponentialSmoothing` forecasts.
-/

namespace PyF.EsFreq

open PyF PyF.Statsmodels

theorem mem_diffs (ts : List ℤ) (x : ℤ) : x ∈ diffs ts ↔ ∃ (k : ℕ) (h : k + 1 < ts.length), x = ts[k + 1] - ts[k] := by
  unfold diffs
  rw [List.mem_iff_getElem]
  constructor
  · rintro ⟨k, hk, h⟩
    have hk' : k + 1 < ts.length := by
      rw [List.length_zipWith, List.length_tail] at hk
      omega
    refine ⟨k, hk', ?_⟩
    rw [List.getElem_zipWith, List.getElem_tail] at h
    exact h.symm
  · rintro ⟨k, hk, h⟩
    refine ⟨k, ?_, ?_⟩
    · rw [List.length_zipWith, List.length_tail]
      omega
    · rw [List.getElem_zipWith, List.getElem_tail]
      exact h.symm

theorem min_eq {l : List ℤ} {s : ℤ} (h : s ∈ l) (hs : ∀ x ∈ l, s ≤ x) : l.min?.getD 0 = s := by
  rw [List.min?_eq_some_iff.2 ⟨h, hs⟩]
  rfl

theorem max_eq {l : List ℤ} {s : ℤ} (h : s ∈ l) (hs : ∀ x ∈ l, x ≤ s) : l.max?.getD 0 = s := by
  rw [List.max?_eq_some_iff.2 ⟨h, hs⟩]
  rfl

theorem getForecasts_length {M O : Type} (L : Lib M O) (n : ℕ) (r : List O) : ∀ m : M, (getForecasts L n m r).length = r.length := by
  induction r with
  | nil => intro m; rfl
  | cons y r ih => intro m; rw [getForecasts, List.length_cons, List.length_cons, ih]

theorem predict_index {M : Type} (L : Lib M (ℤ × Option ℚ)) (day : ℤ) (other : List ℤ → Option ℤ) (n : ℕ) (m : M) (c r : Col) (h : regular day other c = .ok r) :
    ∃ p, predict L day other n m c = .ok p ∧ p.map Prod.fst = r.map Prod.fst := by
  unfold predict
  rw [h]
  refine ⟨_, rfl, ?_⟩
  rw [List.map_fst_zip]
  rw [getForecasts_length, List.length_map]

/-- Fewer than three rows: neither `predict` nor `fit` is possible. -/
theorem C334_three_rows {M : Type} (L : Lib M (ℤ × Option ℚ)) (day : ℤ) (other : List ℤ → Option ℤ) (n : ℕ) (m : M) (estimate : Col → M) (c : Col) (h : c.length < 3) :
    predict L day other n m c = .error .valueError ∧ fit L day other n estimate c = .error .valueError := by
  have hr : regular day other c = .error .valueError := by
    unfold regular inferFreq
    rw [if_pos (by rwa [List.length_map])]
  constructor
  · unfold predict; rw [hr]
  · unfold fit; rw [hr]

theorem valueAt_of_mem {c : Col} (hn : (c.map Prod.fst).Nodup) {t : ℤ} {v : Option ℚ} (h : (t, v) ∈ c) : valueAt c t = v := by
  unfold valueAt
  induction c with
  | nil => cases h
  | cons r c ih =>
    rw [List.map_cons, List.nodup_cons] at hn
    rcases List.mem_cons.1 h with h | h
    · rw [← h, List.find?_cons_of_pos (by simp)]
      rfl
    · have : r.1 ≠ t := fun he => hn.1 (he ▸ List.mem_map_of_mem h)
      rw [List.find?_cons_of_neg (by simpa using this)]
      exact ih hn.2 h

theorem nodup_of_lt {ts : List ℤ} (h : ts.Pairwise (· < ·)) : ts.Nodup := h.imp (fun hab => ne_of_lt hab)

/-- Equal steps that are not whole days: the frame is left as it is and every row gets its forecast. -/
theorem C334_equal_steps {M : Type} (L : Lib M (ℤ × Option ℚ)) (day : ℤ) (other : List ℤ → Option ℤ) (n : ℕ) (m : M) (N : ℕ) (t0 d : ℤ) (v : ℕ → Option ℚ)
    (hN : 3 ≤ N) (hd : 0 < d) (hday : d % day ≠ 0) :
    regular day other ((List.range N).map (fun (i : ℕ) => (t0 + (i : ℤ) * d, v i))) = .ok ((List.range N).map (fun (i : ℕ) => (t0 + (i : ℤ) * d, v i))) ∧
    ∃ p, predict L day other n m ((List.range N).map (fun (i : ℕ) => (t0 + (i : ℤ) * d, v i))) = .ok p ∧
      p.map Prod.fst = (List.range N).map (fun (i : ℕ) => t0 + (i : ℤ) * d) := by
  have hts : ((List.range N).map (fun (i : ℕ) => (t0 + (i : ℤ) * d, v i))).map Prod.fst = (List.range N).map (fun (i : ℕ) => t0 + (i : ℤ) * d) := by
    rw [List.map_map]; rfl
  have hlt : ((List.range N).map (fun (i : ℕ) => t0 + (i : ℤ) * d)).Pairwise (· < ·) := by
    rw [List.pairwise_map]
    refine List.pairwise_lt_range.imp ?_
    intro a b hab
    have : (a : ℤ) < b := by exact_mod_cast hab
    nlinarith
  have hdiff : ∀ x, x ∈ diffs ((List.range N).map (fun (i : ℕ) => t0 + (i : ℤ) * d)) ↔ x = d := by
    intro x
    rw [mem_diffs]
    constructor
    · rintro ⟨k, hk, h⟩
      rw [h]
      simp only [List.getElem_map, List.getElem_range]
      push_cast
      ring
    · intro h
      refine ⟨0, by rw [List.length_map, List.length_range]; omega, ?_⟩
      simp only [List.getElem_map, List.getElem_range]
      rw [h]
      push_cast
      ring
  have hmin : (diffs ((List.range N).map (fun (i : ℕ) => t0 + (i : ℤ) * d))).min?.getD 0 = d :=
    min_eq ((hdiff d).2 rfl) (fun x hx => le_of_eq ((hdiff x).1 hx).symm)
  have hlo : ((List.range N).map (fun (i : ℕ) => t0 + (i : ℤ) * d)).min?.getD 0 = t0 := by
    refine min_eq (List.mem_map.2 ⟨0, List.mem_range.2 (by omega), by simp⟩) ?_
    intro x hx
    obtain ⟨i, _, rfl⟩ := List.mem_map.1 hx
    nlinarith [Int.natCast_nonneg i]
  have hhi : ((List.range N).map (fun (i : ℕ) => t0 + (i : ℤ) * d)).max?.getD 0 = t0 + ((N - 1 : ℕ) : ℤ) * d := by
    refine max_eq (List.mem_map.2 ⟨N - 1, List.mem_range.2 (by omega), rfl⟩) ?_
    intro x hx
    obtain ⟨i, hi, rfl⟩ := List.mem_map.1 hx
    have : (i : ℤ) ≤ ((N - 1 : ℕ) : ℤ) := by
      have := List.mem_range.1 hi
      exact_mod_cast (by omega : i ≤ N - 1)
    nlinarith
  have hr : regular day other ((List.range N).map (fun (i : ℕ) => (t0 + (i : ℤ) * d, v i))) = .ok ((List.range N).map (fun (i : ℕ) => (t0 + (i : ℤ) * d, v i))) := by
    unfold regular inferFreq
    rw [hts, if_neg (by rw [List.length_map, List.length_range]; omega), if_neg (not_not.2 hlt), hmin, if_neg hday, if_pos (by
      rw [List.all_eq_true]
      intro x hx
      rw [(hdiff x).1 hx]
      exact beq_self_eq_true d)]
    simp only
    rw [if_neg (not_not.2 (nodup_of_lt hlt))]
    unfold dateRange
    simp only [hlo, hhi, Option.getD_some]
    have hq : ((t0 + ((N - 1 : ℕ) : ℤ) * d - t0) / d).toNat + 1 = N := by
      rw [add_sub_cancel_left, Int.mul_ediv_cancel _ hd.ne', Int.toNat_natCast]
      omega
    rw [hq, List.map_map]
    congr 1
    apply List.map_congr_left
    intro k hk
    simp only [Function.comp_apply, Prod.mk.injEq, true_and]
    exact valueAt_of_mem (by rw [hts]; exact nodup_of_lt hlt) (List.mem_map.2 ⟨k, hk, rfl⟩)
  refine ⟨hr, ?_⟩
  obtain ⟨p, h1, h2⟩ := predict_index L day other n m _ _ hr
  exact ⟨p, h1, h2.trans hts⟩

/-- Steps that differ, the smallest not whole days: what `regular` gives. -/
theorem regular_gap (day : ℤ) (other : List ℤ → Option ℤ) (c : Col) (first last s : ℤ) (h3 : 3 ≤ c.length) (hlt : (c.map Prod.fst).Pairwise (· < ·))
    (hf : first ∈ c.map Prod.fst) (hfirst : ∀ t ∈ c.map Prod.fst, first ≤ t) (hl : last ∈ c.map Prod.fst) (hlast : ∀ t ∈ c.map Prod.fst, t ≤ last)
    (hs : ∃ (k : ℕ) (h : k + 1 < (c.map Prod.fst).length), (c.map Prod.fst)[k + 1] - (c.map Prod.fst)[k] = s)
    (hmin : ∀ (k : ℕ) (h : k + 1 < (c.map Prod.fst).length), s ≤ (c.map Prod.fst)[k + 1] - (c.map Prod.fst)[k])
    (hgap : ∃ (k : ℕ) (h : k + 1 < (c.map Prod.fst).length), (c.map Prod.fst)[k + 1] - (c.map Prod.fst)[k] ≠ s)
    (hday : s % day ≠ 0) :
    regular day other c = .ok ((List.range (((last - first) / day).toNat + 1)).map (fun (k : ℕ) => (first + (k : ℤ) * day, valueAt c (first + (k : ℤ) * day)))) := by
  have hm : (diffs (c.map Prod.fst)).min?.getD 0 = s := by
    refine min_eq ?_ ?_
    · obtain ⟨k, hk, h⟩ := hs
      exact (mem_diffs _ _).2 ⟨k, hk, h.symm⟩
    · intro x hx
      obtain ⟨k, hk, h⟩ := (mem_diffs _ _).1 hx
      rw [h]
      exact hmin k hk
  have hall : ¬ ((diffs (c.map Prod.fst)).all (fun x => x == s) = true) := by
    rw [List.all_eq_true]
    intro h
    obtain ⟨k, hk, hne⟩ := hgap
    exact hne (by simpa using h _ ((mem_diffs _ _).2 ⟨k, hk, rfl⟩))
  unfold regular inferFreq
  rw [if_neg (by rw [List.length_map]; omega), if_neg (not_not.2 hlt), hm, if_neg hday, if_neg hall]
  simp only
  rw [if_neg (not_not.2 (nodup_of_lt hlt))]
  unfold dateRange
  simp only [min_eq hf hfirst, max_eq hl hlast, Option.getD_none]
  rw [List.map_map]
  rfl

/-- Steps that differ, the smallest not whole days, as in hourly data with a row missing: the forecasts are daily from the first time on, made from the rows
of those times only; other rows get no forecast and no part in those made. -/
theorem C334_gap {M : Type} (L : Lib M (ℤ × Option ℚ)) (day : ℤ) (other : List ℤ → Option ℤ) (n : ℕ) (m : M) (c : Col) (first last s : ℤ) (h3 : 3 ≤ c.length)
    (hlt : (c.map Prod.fst).Pairwise (· < ·))
    (hf : first ∈ c.map Prod.fst) (hfirst : ∀ t ∈ c.map Prod.fst, first ≤ t) (hl : last ∈ c.map Prod.fst) (hlast : ∀ t ∈ c.map Prod.fst, t ≤ last)
    (hs : ∃ (k : ℕ) (h : k + 1 < (c.map Prod.fst).length), (c.map Prod.fst)[k + 1] - (c.map Prod.fst)[k] = s)
    (hmin : ∀ (k : ℕ) (h : k + 1 < (c.map Prod.fst).length), s ≤ (c.map Prod.fst)[k + 1] - (c.map Prod.fst)[k])
    (hgap : ∃ (k : ℕ) (h : k + 1 < (c.map Prod.fst).length), (c.map Prod.fst)[k + 1] - (c.map Prod.fst)[k] ≠ s)
    (hday : s % day ≠ 0) :
    ∃ p, predict L day other n m c = .ok p ∧
      p.map Prod.fst = (List.range (((last - first) / day).toNat + 1)).map (fun (k : ℕ) => first + (k : ℤ) * day) ∧
      (∀ t ∈ c.map Prod.fst, (t - first) % day ≠ 0 → t ∉ p.map Prod.fst) ∧
      p.map Prod.snd = getForecasts L n m ((List.range (((last - first) / day).toNat + 1)).map
        (fun (k : ℕ) => (first + (k : ℤ) * day, valueAt (c.filter (fun r => (r.1 - first) % day == 0)) (first + (k : ℤ) * day)))) := by
  have hr := regular_gap day other c first last s h3 hlt hf hfirst hl hlast hs hmin hgap hday
  have hv : ∀ k : ℕ, valueAt c (first + (k : ℤ) * day) = valueAt (c.filter (fun r => (r.1 - first) % day == 0)) (first + (k : ℤ) * day) := by
    intro k
    unfold valueAt
    rw [List.find?_filter]
    congr 2
    funext r
    by_cases h : r.1 = first + (k : ℤ) * day
    · simp [h]
    · simp [h]
  have hi : ∀ p : List (ℤ × List ℚ), p.map Prod.fst = (List.range (((last - first) / day).toNat + 1)).map (fun (k : ℕ) => first + (k : ℤ) * day) →
      ∀ t ∈ c.map Prod.fst, (t - first) % day ≠ 0 → t ∉ p.map Prod.fst := by
    intro p hp t _ ht hin
    rw [hp] at hin
    obtain ⟨k, _, rfl⟩ := List.mem_map.1 hin
    exact ht (by rw [add_sub_cancel_left, Int.mul_emod_left])
  have hidx : ((List.range (((last - first) / day).toNat + 1)).map (fun (k : ℕ) => (first + (k : ℤ) * day, valueAt c (first + (k : ℤ) * day)))).map Prod.fst
      = (List.range (((last - first) / day).toNat + 1)).map (fun (k : ℕ) => first + (k : ℤ) * day) := by
    rw [List.map_map]; rfl
  have hp : predict L day other n m c = .ok ((((List.range (((last - first) / day).toNat + 1)).map
      (fun (k : ℕ) => (first + (k : ℤ) * day, valueAt c (first + (k : ℤ) * day)))).map Prod.fst).zip (getForecasts L n m ((List.range (((last - first) / day).toNat + 1)).map
      (fun (k : ℕ) => (first + (k : ℤ) * day, valueAt c (first + (k : ℤ) * day)))))) := by
    unfold predict
    rw [hr]
  refine ⟨_, hp, ?_, hi _ ?_, ?_⟩
  · rw [List.map_fst_zip (by rw [getForecasts_length, List.length_map]), hidx]
  · rw [List.map_fst_zip (by rw [getForecasts_length, List.length_map]), hidx]
  · rw [List.map_snd_zip (by rw [getForecasts_length, List.length_map, List.length_map, List.length_map])]
    simp only [hv]

/-- The same kind of frame over less than two days cannot be used to fit. -/
theorem C334_gap_fit {M : Type} (L : Lib M (ℤ × Option ℚ)) (day : ℤ) (hpos : 0 < day) (other : List ℤ → Option ℤ) (n : ℕ) (estimate : Col → M) (c : Col) (first last s : ℤ)
    (h3 : 3 ≤ c.length) (hlt : (c.map Prod.fst).Pairwise (· < ·))
    (hf : first ∈ c.map Prod.fst) (hfirst : ∀ t ∈ c.map Prod.fst, first ≤ t) (hl : last ∈ c.map Prod.fst) (hlast : ∀ t ∈ c.map Prod.fst, t ≤ last)
    (hs : ∃ (k : ℕ) (h : k + 1 < (c.map Prod.fst).length), (c.map Prod.fst)[k + 1] - (c.map Prod.fst)[k] = s)
    (hmin : ∀ (k : ℕ) (h : k + 1 < (c.map Prod.fst).length), s ≤ (c.map Prod.fst)[k + 1] - (c.map Prod.fst)[k])
    (hgap : ∃ (k : ℕ) (h : k + 1 < (c.map Prod.fst).length), (c.map Prod.fst)[k + 1] - (c.map Prod.fst)[k] ≠ s)
    (hday : s % day ≠ 0) (hspan : last - first < 2 * day) : fit L day other n estimate c = .error .valueError := by
  unfold fit
  rw [regular_gap day other c first last s h3 hlt hf hfirst hl hlast hs hmin hgap hday]
  simp only
  rw [(C334_three_rows L day other n (estimate _) estimate _ ?_).1]
  rw [List.length_map, List.length_range]
  have : (last - first) / day < 2 := Int.ediv_lt_of_lt_mul hpos hspan
  omega

end PyF.EsFreq
