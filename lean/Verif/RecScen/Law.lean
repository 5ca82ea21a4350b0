import Verif.RecScen.Props
import Mathlib.MeasureTheory.Integral.Bochner.Set

/-!
C296: the distribution of scenarios from past errors. The positions drawn by `np.random.choice` (L364) are random variables, each uniformly distributed over the rows
of errors of the hour.
-/

namespace PyF.RecScen
open PyF MeasureTheory

variable {Ω : Type} [MeasurableSpace Ω]

/-- Number of rows of errors of an hour. -/
def nErr {K : Type} (errs : Frame K) (h : ℕ) : ℕ := (errs.rows.filter (fun q => decide (q.1 = h))).length

/-- Uniform draws of positions. -/
structure Uniform {K : Type} (P : Measure Ω) (errs : Frame K) (draw : Ω → ℕ → ℕ → ℕ → ℕ) : Prop where
  meas : ∀ h s k r, MeasurableSet {ω | draw ω h s k = r}
  lt : ∀ ω h s k, (∃ q ∈ errs.rows, q.1 = h) → draw ω h s k < nErr errs h
  unif : ∀ h s k r, r < nErr errs h → P.real {ω | draw ω h s k = r} = 1 / nErr errs h

/-- Expectation of a function of a number drawn. -/
theorem integral_draw (P : Measure Ω) [IsProbabilityMeasure P] (D : Ω → ℕ) (L : ℕ) (hm : ∀ r, MeasurableSet {ω | D ω = r}) (hlt : ∀ ω, D ω < L) (hu : ∀ r < L, P.real {ω | D ω = r} = 1 / L) (f : ℕ → ℝ) :
    ∫ ω, f (D ω) ∂P = (∑ r ∈ Finset.range L, f r) / L := by
  have h1 : (fun ω => f (D ω)) = fun ω => ∑ r ∈ Finset.range L, Set.indicator {ω | D ω = r} (fun _ => f r) ω := by
    funext ω
    rw [Finset.sum_eq_single (D ω)]
    · simp
    · intro r _ hr
      rw [Set.indicator_of_notMem]
      simpa using hr.symm
    · intro h
      exact absurd (Finset.mem_range.2 (hlt ω)) h
  rw [h1, integral_finsetSum _ (fun r _ => (integrable_const (f r)).indicator (hm r)), Finset.sum_div]
  refine Finset.sum_congr rfl fun r hr => ?_
  rw [integral_indicator_const _ (hm r), hu r (Finset.mem_range.1 hr), smul_eq_mul]
  ring

/-- Probability that the number drawn has a property. -/
theorem prob_draw (P : Measure Ω) [IsProbabilityMeasure P] (D : Ω → ℕ) (L : ℕ) (hm : ∀ r, MeasurableSet {ω | D ω = r}) (hlt : ∀ ω, D ω < L) (hu : ∀ r < L, P.real {ω | D ω = r} = 1 / L) (A : ℕ → Prop)
    [DecidablePred A] : P.real {ω | A (D ω)} = ((Finset.range L).filter A).card / L := by
  have h1 : {ω | A (D ω)} = ⋃ r ∈ (Finset.range L).filter A, {ω | D ω = r} := by
    ext ω
    simp [hlt ω]
  rw [h1, measureReal_biUnion_finset]
  · rw [Finset.sum_congr rfl (fun r hr => hu r (Finset.mem_range.1 (Finset.mem_filter.1 hr).1)), Finset.sum_const, nsmul_eq_mul]
    ring
  · intro a _ b _ hab
    exact Set.disjoint_left.2 fun ω h h' => hab (h.symm.trans h')
  · intro r _
    exact hm r

/-- The value of series `j` in scenario `s` of row `i` of a result. -/
def valueOf (i s j : ℕ) : Except PyErr (Res ℝ) → ℝ
  | .ok (.array a) => ((slice a i s).getD []).getD j 0
  | _ => 0

variable (P : Measure Ω) [IsProbabilityMeasure P] (errs yhat : Frame ℝ) (he : errs.Ok) (hy : yhat.Ok) (nSc : ℕ) (hn : nSc ≠ 0) (hw : errs.width = yhat.width ∨ errs.width = 1) (hc : Covers errs yhat)
  (draw : Ω → ℕ → ℕ → ℕ → ℕ) (hu : Uniform P errs draw) (i : ℕ) (p : ℕ × List ℝ) (hi : yhat.rows[i]? = some p) (s : ℕ) (hs : s < nSc)

include he hy hn hw hc hu hi hs in
open Classical in
/-- C296 (distribution): the probability that the scenarios of a row are in a set is the share of those rows of errors of its hour which, added to the forecast, are in the set. So
the series of a scenario depend on each other as the errors do. -/
theorem C296_law (A : List ℝ → Prop) :
    P.real {ω | ∃ a x, getScenarios errs yhat nSc "unconditional" (draw ω) = .ok (.array a) ∧ slice a i s = some x ∧ A x} =
      ((Finset.range (nErr errs p.1)).filter (fun r => ∃ e x, (errs.rows.filter (fun q => decide (q.1 = p.1)))[r]? = some (p.1, e) ∧ IsSum errs.width p.2 e x ∧ A x)).card / nErr errs p.1 := by
  have hex : ∃ q ∈ errs.rows, q.1 = p.1 := hc p (List.mem_of_getElem? hi)
  set k := (yhat.rows.take i).countP (fun q => decide (q.1 = p.1)) with hk
  rw [← prob_draw P (fun ω => draw ω p.1 s k) (nErr errs p.1) (fun r => hu.meas _ _ _ r) (fun ω => hu.lt ω _ _ _ hex) (fun r hr => hu.unif _ _ _ r hr)]
  congr 1
  ext ω
  obtain ⟨a, e1, -, -, e4⟩ := (C220_scenarios errs yhat he hy nSc (draw ω) (fun h s k => hu.lt ω h s k)).2 hn hw hc
  obtain ⟨e, x, g0, g2, g3⟩ := e4 i p s hi hs
  have huniq : ∀ x', IsSum errs.width p.2 e x' → x' = x := by
    intro x' hx'
    refine List.ext_getElem? fun j => ?_
    cases hj : p.2[j]? with
    | none =>
      rw [List.getElem?_eq_none_iff] at hj
      rw [List.getElem?_eq_none (by rw [hx'.1]; exact hj), List.getElem?_eq_none (by rw [g3.1]; exact hj)]
    | some v =>
      obtain ⟨b, b1, b2⟩ := hx'.2 j v hj
      obtain ⟨b', c1, c2⟩ := g3.2 j v hj
      rw [b1] at c1
      cases c1
      rw [b2, c2]
  simp only [Set.mem_setOf_eq]
  constructor
  · rintro ⟨a', x', f1, f2, f3⟩
    rw [e1] at f1
    cases f1
    rw [g2] at f2
    cases f2
    exact ⟨e, x, g0, g3, f3⟩
  · rintro ⟨e', x', f1, f2, f3⟩
    rw [g0] at f1
    cases f1
    rw [huniq x' f2] at f3
    exact ⟨a, x, e1, g2, f3⟩

include he hy hn hw hc hu hi hs in
/-- C296 (expectation): the scenarios of a row and series scatter around the forecast plus the mean of the past errors of the hour, not around the forecast. -/
theorem C296_mean (j : ℕ) (hj : j < yhat.width) :
    ∫ ω, valueOf i s j (getScenarios errs yhat nSc "unconditional" (draw ω)) ∂P =
      p.2.getD j 0 + (((errs.rows.filter (fun q => decide (q.1 = p.1))).map (fun q => q.2.getD (if errs.width = 1 then 0 else j) 0)).sum) / nErr errs p.1 := by
  have hex : ∃ q ∈ errs.rows, q.1 = p.1 := hc p (List.mem_of_getElem? hi)
  set k := (yhat.rows.take i).countP (fun q => decide (q.1 = p.1)) with hk
  set L := errs.rows.filter (fun q => decide (q.1 = p.1)) with hL
  have hpl : p.2.length = yhat.width := (hy p (List.mem_of_getElem? hi)).2
  have hpos : 0 < nErr errs p.1 := by
    obtain ⟨q, hq, hq'⟩ := hex
    exact List.length_pos_of_mem (List.mem_filter.2 ⟨hq, by simpa using hq'⟩)
  have hval : ∀ ω, valueOf i s j (getScenarios errs yhat nSc "unconditional" (draw ω)) =
      (fun r => p.2.getD j 0 + ((L.map (fun q => q.2.getD (if errs.width = 1 then 0 else j) 0)).getD r 0)) (draw ω p.1 s k) := by
    intro ω
    obtain ⟨a, e1, -, -, e4⟩ := (C220_scenarios errs yhat he hy nSc (draw ω) (fun h s k => hu.lt ω h s k)).2 hn hw hc
    obtain ⟨e, x, g0, g2, g3⟩ := e4 i p s hi hs
    rw [← hk, ← hL] at g0
    rw [e1]
    unfold valueOf
    simp only [g2, Option.getD_some]
    obtain ⟨b, b1, b2⟩ := g3.2 j (p.2[j]'(by omega)) (List.getElem?_eq_getElem (by omega))
    simp only [List.getD_eq_getElem?_getD, b2, List.getElem?_map, g0, Option.map_some, b1, Option.getD_some]
    rw [List.getElem?_eq_getElem (by omega), Option.getD_some]
  rw [integral_congr_ae (Filter.Eventually.of_forall hval),
    integral_draw P (fun ω => draw ω p.1 s k) (nErr errs p.1) (fun r => hu.meas _ _ _ r) (fun ω => hu.lt ω _ _ _ hex) (fun r hr => hu.unif _ _ _ r hr)
      (fun r => p.2.getD j 0 + (L.map (fun q => q.2.getD (if errs.width = 1 then 0 else j) 0)).getD r 0)]
  have hsum : ∀ l : List ℝ, ∑ r ∈ Finset.range l.length, l.getD r 0 = l.sum := by
    intro l
    induction l with
    | nil => simp
    | cons a l ih =>
      rw [List.length_cons, Finset.sum_range_succ', List.sum_cons]
      simp only [List.getD_cons_succ, List.getD_cons_zero]
      rw [ih]
      ring
  have h2 := hsum (L.map (fun q => q.2.getD (if errs.width = 1 then 0 else j) 0))
  rw [List.length_map] at h2
  rw [Finset.sum_add_distrib, show nErr errs p.1 = L.length from rfl, h2, Finset.sum_const, Finset.card_range, nsmul_eq_mul]
  have : (L.length : ℝ) ≠ 0 := by
    have : 0 < L.length := hpos
    exact_mod_cast this.ne'
  field_simp

end PyF.RecScen
