import Verif.RecScen.Lemmas
import Mathlib.Algebra.BigOperators.Group.List.Basic
import Mathlib.Algebra.BigOperators.Ring.List

namespace PyF.RecScen
open PyF
variable {K : Type}

/-- C220: scenarios exist exactly if at least one is asked for, the columns agree (or there is a single column of errors) and every hour of the
forecasts occurs among the errors; anything else is a `ValueError`, even if only one row lacks its hour. Then the array has one entry per row, series and
scenario, and scenario `s` of the `k`-th row of an hour is that row of the forecast plus one whole row of errors of the same hour, the one at the position drawn for `s` and `k`. -/
theorem C220_scenarios [Zero K] [Add K] (errs yhat : Frame K) (he : errs.Ok) (hy : yhat.Ok) (nSc : Nat) (draw : Nat → Nat → Nat → Nat)
    (hd : ∀ h s k, (∃ q ∈ errs.rows, q.1 = h) → draw h s k < (errs.rows.filter (fun q => decide (q.1 = h))).length) :
    (¬ (nSc ≠ 0 ∧ (errs.width = yhat.width ∨ errs.width = 1) ∧ Covers errs yhat) → getScenarios errs yhat nSc "unconditional" draw = .error .valueError) ∧
      (nSc ≠ 0 → (errs.width = yhat.width ∨ errs.width = 1) → Covers errs yhat → ∃ a, getScenarios errs yhat nSc "unconditional" draw = .ok (.array a) ∧ a.length = yhat.rows.length ∧
        (∀ row ∈ a, row.length = yhat.width ∧ ∀ c ∈ row, c.length = nSc) ∧
        ∀ (i : Nat) (p : Nat × List K) (s : Nat), yhat.rows[i]? = some p → s < nSc → ∃ e x, (errs.rows.filter (fun q => decide (q.1 = p.1)))[draw p.1 s ((yhat.rows.take i).countP (fun q => decide (q.1 = p.1)))]? = some (p.1, e) ∧ slice a i s = some x ∧ IsSum errs.width p.2 e x) := by
  have hd' : ∀ h s k, ofHour errs h ≠ [] → draw h s k < (ofHour errs h).length := by
    intro h s k hne
    have : ∃ q ∈ errs.rows, q.1 = h := by
      by_contra hc
      push Not at hc
      exact hne (ofHour_eq_nil.2 hc)
    have := hd h s k this
    unfold ofHour
    rwa [List.length_map]
  obtain ⟨l1, l2⟩ := loop_spec errs yhat nSc draw hd' (List.range 24) List.nodup_range (yhat.rows.map (fun _ => List.replicate yhat.width (List.replicate nSc 0))) (by simp)
  constructor
  · intro hn
    rw [← good_all hy] at hn
    push Not at hn
    unfold getScenarios
    rw [if_pos rfl, l1 hn]
  · intro g1 g2 g3
    obtain ⟨arr, e1, e2, e3⟩ := l2 ((good_all hy).2 ⟨g1, g2, g3⟩)
    refine ⟨_, by unfold getScenarios; rw [if_pos rfl, e1], by rw [List.length_zipWith, e2, Nat.min_self], ?_, ?_⟩
    · intro row hrow
      obtain ⟨i, hi⟩ := List.mem_iff_getElem?.1 hrow
      obtain ⟨p, r, hp, hr, hz⟩ := List.getElem?_zipWith_eq_some.1 hi
      have hpm := hy p (List.mem_of_getElem? hp)
      obtain ⟨d1, pick, d2, d3⟩ := (e3 i p.1 r (by rw [List.getElem?_map, hp]; rfl) hr).1 (List.mem_range.2 hpm.1)
      subst hz
      refine ⟨by rw [List.length_zipWith, d1, hpm.2, Nat.min_self], ?_⟩
      intro c hc
      obtain ⟨j, hj⟩ := List.mem_iff_getElem?.1 hc
      obtain ⟨y, es, hy', hes, hc'⟩ := List.getElem?_zipWith_eq_some.1 hj
      have hj' : j < yhat.width := by rw [← d1]; exact (List.getElem?_eq_some_iff.1 hes).1
      rw [d3 j hj', Option.some.injEq] at hes
      rw [← hc', ← hes]
      simp
    · intro i p s hp hs
      have hpm := hy p (List.mem_of_getElem? hp)
      have hil : i < arr.length := by rw [e2]; exact (List.getElem?_eq_some_iff.1 hp).1
      obtain ⟨d1, pick, d2, d3⟩ := (e3 i p.1 arr[i] (by rw [List.getElem?_map, hp]; rfl) (List.getElem?_eq_getElem hil)).1 (List.mem_range.2 hpm.1)
      have hpk := mem_ofHour.1 (List.mem_of_getElem? (d2 s hs))
      have hdr := d2 s hs
      rw [← List.map_take, List.countP_map] at hdr
      unfold ofHour at hdr
      rw [List.getElem?_map, Option.map_eq_some_iff] at hdr
      obtain ⟨q, hq1, hq2⟩ := hdr
      have hq3 : q = (p.1, pick s) := by
        have := (List.mem_filter.1 (List.mem_of_getElem? hq1)).2
        rw [decide_eq_true_eq] at this
        exact Prod.ext this hq2
      rw [hq3] at hq1
      have hlen := (he _ hpk).2
      refine ⟨pick s, List.zipWith (fun (y : K) (j : Nat) => y + col errs.width (pick s) j) p.2 (List.range yhat.width), hq1, ?_, ?_⟩
      · unfold slice
        rw [List.getElem?_zipWith_eq_some.2 ⟨p, arr[i], hp, List.getElem?_eq_getElem hil, rfl⟩]
        simp only [Option.bind_some]
        refine mapM_opt _ _ _ (by simp [d1]) ?_
        intro j c hc
        obtain ⟨y, es, hy', hes, hc'⟩ := List.getElem?_zipWith_eq_some.1 hc
        have hj' : j < yhat.width := by rw [← d1]; exact (List.getElem?_eq_some_iff.1 hes).1
        rw [d3 j hj', Option.some.injEq] at hes
        rw [List.getElem?_zipWith_eq_some.2 ⟨y, j, hy', List.getElem?_range hj', rfl⟩, ← hc', ← hes, List.getElem?_map, List.getElem?_map, List.getElem?_range hs]
        rfl
      · refine ⟨by simp [hpm.2], ?_⟩
        intro j a ha
        have hj' : j < yhat.width := by rw [← hpm.2]; exact (List.getElem?_eq_some_iff.1 ha).1
        have hlt : (if errs.width = 1 then 0 else j) < (pick s).length := by
          rw [hlen]
          split
          · omega
          · rcases g2 with h | h
            · rw [h]; exact hj'
            · contradiction
        refine ⟨(pick s)[if errs.width = 1 then 0 else j], List.getElem?_eq_getElem hlt, ?_⟩
        rw [List.getElem?_zipWith_eq_some.2 ⟨a, j, ha, List.getElem?_range hj', rfl⟩]
        unfold col
        rw [List.getD_eq_getElem?_getD, List.getElem?_eq_getElem hlt, Option.getD_some]

/-- C220: the other methods: `conditional` gives the number 0 whatever the inputs, anything else is refused. -/
theorem C220_methods [Zero K] [Add K] (errs yhat : Frame K) (nSc : Nat) (method : String) (draw : Nat → Nat → Nat → Nat) (hm : method ≠ "unconditional") :
    (method = "conditional" → getScenarios errs yhat nSc method draw = .ok .zero) ∧ (method ≠ "conditional" → getScenarios errs yhat nSc method draw = .error .notImplementedError) := by
  constructor
  · intro h; unfold getScenarios; rw [if_neg hm, if_pos h]
  · intro h; unfold getScenarios; rw [if_neg hm, if_neg h]

/-- The value of a linear form on a row. -/
def form [CommRing K] (c row : List K) : K := (List.zipWith (· * ·) c row).sum

theorem form_add [CommRing K] : ∀ (c y e x : List K), c.length = y.length → x.length = y.length → e.length = y.length → (∀ (j : Nat) (a : K), y[j]? = some a → ∃ b, e[j]? = some b ∧ x[j]? = some (a + b)) →
    form c x = form c y + form c e := by
  intro c
  induction c with
  | nil => intro y e x _ _ _ _; simp [form]
  | cons c0 c ih =>
    intro y e x h1 h2 h3 H
    cases y with
    | nil => cases h1
    | cons y0 y =>
      cases e with
      | nil => cases h3
      | cons e0 e =>
        cases x with
        | nil => cases h2
        | cons x0 x =>
          obtain ⟨b, hb, hx⟩ := H 0 y0 rfl
          simp only [List.getElem?_cons_zero, Option.some.injEq] at hb hx
          subst hb
          have := ih y e x (by simpa using h1) (by simpa using h2) (by simpa using h3) (fun j a ha => by simpa using H (j + 1) a (by simpa using ha))
          unfold form at this ⊢
          simp only [List.zipWith_cons_cons, List.sum_cons, this, hx]
          ring

/-- C221: scenarios keep every linear relation between the series that both the forecasts and the past errors satisfy, in particular the sums of a hierarchy. -/
theorem C221_relations_kept [CommRing K] (errs yhat : Frame K) (he : errs.Ok) (hy : yhat.Ok) (hw : errs.width = yhat.width) (nSc : Nat) (draw : Nat → Nat → Nat → Nat)
    (hd : ∀ h s k, (∃ q ∈ errs.rows, q.1 = h) → draw h s k < (errs.rows.filter (fun q => decide (q.1 = h))).length) (a : List (List (List K)))
    (ha : getScenarios errs yhat nSc "unconditional" draw = .ok (.array a)) (c : List K) (hc : c.length = yhat.width) (hyc : ∀ p ∈ yhat.rows, form c p.2 = 0) (hec : ∀ q ∈ errs.rows, form c q.2 = 0) :
    ∀ i s, i < yhat.rows.length → s < nSc → ∃ x, slice a i s = some x ∧ form c x = 0 := by
  intro i s hi hs
  obtain ⟨h1, h2⟩ := C220_scenarios errs yhat he hy nSc draw hd
  by_cases hall : nSc ≠ 0 ∧ (errs.width = yhat.width ∨ errs.width = 1) ∧ Covers errs yhat
  · obtain ⟨a', e1, _, _, e4⟩ := h2 hall.1 hall.2.1 hall.2.2
    rw [ha] at e1
    cases e1
    obtain ⟨e, x, g0, g2, g3, g4⟩ := e4 i yhat.rows[i] s (List.getElem?_eq_getElem hi) hs
    have g1 := (List.mem_filter.1 (List.mem_of_getElem? g0)).1
    refine ⟨x, g2, ?_⟩
    have hl1 := (hy _ (List.getElem_mem hi)).2
    have g5 : ∀ (j : Nat) (a : K), yhat.rows[i].2[j]? = some a → ∃ b, e[j]? = some b ∧ x[j]? = some (a + b) := by
      intro j v hv
      have hj := (List.getElem?_eq_some_iff.1 hv).1
      have he : (if errs.width = 1 then 0 else j) = j := by
        split
        · omega
        · rfl
      have := g4 j v hv
      rwa [he] at this
    rw [form_add c yhat.rows[i].2 e x (by rw [hc, hl1]) g3 (by rw [(he _ g1).2, hw, hl1]) g5, hyc _ (List.getElem_mem hi), hec _ g1, add_zero]
  · rw [h1 hall] at ha
    cases ha

end PyF.RecScen
