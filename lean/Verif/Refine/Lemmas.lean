import Verif.Refine.Model
import Verif.Refine.Spec
import Mathlib.Tactic.Linarith
import Mathlib.Data.List.Nodup

namespace PyF.Refine
open PyF

variable {d : ℕ} {E : Type}

theorem foldl_min (f : Pt d → ℚ) (as : List (Pt d)) (m : ℚ) :
    as.foldl (fun m b => min m (f b)) m ≤ m ∧ (∀ a ∈ as, as.foldl (fun m b => min m (f b)) m ≤ f a) ∧
    (as.foldl (fun m b => min m (f b)) m = m ∨ ∃ a ∈ as, as.foldl (fun m b => min m (f b)) m = f a) := by
  induction as generalizing m with
  | nil => exact ⟨le_refl _, by simp, Or.inl rfl⟩
  | cons a as ih =>
    rw [List.foldl_cons]
    obtain ⟨h1, h2, h3⟩ := ih (min m (f a))
    refine ⟨h1.trans (min_le_left _ _), ?_, ?_⟩
    · intro b hb
      rcases List.mem_cons.1 hb with rfl | hb
      · exact h1.trans (min_le_right _ _)
      · exact h2 b hb
    · rcases h3 with h3 | ⟨b, hb, h3⟩
      · rcases le_total m (f a) with h | h
        · left; rw [h3, min_eq_left h]
        · right; exact ⟨a, List.mem_cons_self, by rw [h3, min_eq_right h]⟩
      · right; exact ⟨b, List.mem_cons_of_mem _ hb, h3⟩

theorem rowMin_nearest (dist : Pt d → Pt d → ℚ) (s : Pt d) (A : List (Pt d)) (hA : A ≠ []) : Spec.Nearest dist s A (rowMin dist s A) := by
  cases A with
  | nil => exact absurd rfl hA
  | cons a as =>
    obtain ⟨h1, h2, h3⟩ := foldl_min (dist s) as (dist s a)
    unfold rowMin
    refine ⟨?_, ?_⟩
    · rcases h3 with h3 | ⟨b, hb, h3⟩
      · exact ⟨a, List.mem_cons_self, h3⟩
      · exact ⟨b, List.mem_cons_of_mem _ hb, h3⟩
    · intro b hb
      rcases List.mem_cons.1 hb with rfl | hb
      · exact h1
      · exact h2 b hb

theorem total_setDistance (dist : Pt d → Pt d → ℚ) (A S : List (Pt d)) (hA : A ≠ []) : Spec.Total dist A S (setDistance dist A S) :=
  ⟨fun s => rowMin dist s A, fun s _ => rowMin_nearest dist s A hA, rfl⟩

/-- Invariant of the inner loops. -/
def Inv (dist : Pt d → Pt d → ℚ) (S : List (Pt d)) (A : List (Pt d)) (cand : ℕ → List (Pt d) → List (Pt d)) (st : List (Pt d) × ℚ) : Prop :=
  st.1.length = A.length ∧ st.2 = setDistance dist st.1 S ∧ st.2 ≤ setDistance dist A S ∧
    ∀ (i : ℕ) v, st.1[i]? = some v → A[i]? = some v ∨ ∃ B, v ∈ cand i B

theorem inv_cand (dist : Pt d → Pt d → ℚ) (S A : List (Pt d)) (cand : ℕ → List (Pt d) → List (Pt d)) (st : List (Pt d) × ℚ) (i : ℕ) (c : Pt d) (B : List (Pt d)) (hc : c ∈ cand i B)
    (h : Inv dist S A cand st) : Inv dist S A cand (tryCand dist S i st c) := by
  unfold tryCand
  split
  · rename_i hlt
    obtain ⟨h1, h2, h3, h4⟩ := h
    refine ⟨by simpa using h1, rfl, hlt.le.trans h3, ?_⟩
    intro j v hv
    by_cases hij : i = j
    · subst hij
      by_cases hl : i < st.1.length
      · rw [List.getElem?_set_self hl] at hv
        obtain rfl := Option.some.inj hv
        exact Or.inr ⟨B, hc⟩
      · rw [List.getElem?_eq_none (by simp; omega)] at hv; cases hv
    · rw [List.getElem?_set_ne hij] at hv
      exact h4 j v hv
  · exact h

theorem inv_node (dist : Pt d → Pt d → ℚ) (S A : List (Pt d)) (cand : ℕ → List (Pt d) → List (Pt d)) (st : List (Pt d) × ℚ) (i : ℕ)
    (h : Inv dist S A cand st) : Inv dist S A cand (tryNode dist S cand st i) := by
  unfold tryNode
  have : ∀ l : List (Pt d), (∀ c ∈ l, c ∈ cand i st.1) → ∀ st', Inv dist S A cand st' → Inv dist S A cand (l.foldl (tryCand dist S i) st') := by
    intro l
    induction l with
    | nil => intro _ st' h; exact h
    | cons c l ih =>
      intro hl st' h'
      rw [List.foldl_cons]
      exact ih (fun c' hc' => hl c' (List.mem_cons_of_mem _ hc')) _ (inv_cand dist S A cand st' i c st.1 (hl c List.mem_cons_self) h')
  exact this _ (fun _ h => h) st h

theorem inv_all (dist : Pt d → Pt d → ℚ) (S A : List (Pt d)) (cand : ℕ → List (Pt d) → List (Pt d)) (l : List ℕ) (st : List (Pt d) × ℚ) (h : Inv dist S A cand st) :
    Inv dist S A cand (l.foldl (tryNode dist S cand) st) := by
  induction l generalizing st with
  | nil => exact h
  | cons i l ih => rw [List.foldl_cons]; exact ih _ (inv_node dist S A cand st i h)

/-- The new points of a later step. -/
theorem newAlphas_later (dist : Pt d → Pt d → ℚ) (cand : ℕ → ℕ → List (Pt d) → List (Pt d)) (t : ℕ) (ht : t ≠ 0) (A S : List (Pt d)) :
    (newAlphas dist cand t A S).length = A.length ∧ setDistance dist (newAlphas dist cand t A S) S ≤ setDistance dist A S ∧
    ∀ (i : ℕ) v, (newAlphas dist cand t A S)[i]? = some v → A[i]? = some v ∨ ∃ B, v ∈ cand t i B := by
  have h := inv_all dist S A (cand t) (List.range A.length) (A, setDistance dist A S) ⟨rfl, rfl, le_refl _, fun i v hv => Or.inl hv⟩
  unfold newAlphas
  rw [if_neg ht]
  exact ⟨h.1, h.2.1 ▸ h.2.2.1, h.2.2.2⟩

/-- What a write leaves alone. -/
def Same (g g' : List (Node d E)) : Prop := List.Forall₂ (fun n n' => n.t = n'.t ∧ n.p = n'.p ∧ n.e = n'.e) g g'

theorem same_refl (g : List (Node d E)) : Same g g := by
  unfold Same
  induction g with
  | nil => exact List.Forall₂.nil
  | cons n g ih => exact List.Forall₂.cons ⟨rfl, rfl, rfl⟩ ih

theorem same_trans {g g' g'' : List (Node d E)} (h : Same g g') (h' : Same g' g'') : Same g g'' := by
  unfold Same at *
  induction h generalizing g'' with
  | nil => cases h'; exact List.Forall₂.nil
  | cons h1 _ ih =>
    cases h' with
    | cons h2 h3 => exact List.Forall₂.cons ⟨h1.1.trans h2.1, h1.2.1.trans h2.2.1, h1.2.2.trans h2.2.2⟩ (ih h3)

theorem same_count {g g' : List (Node d E)} (h : Same g g') (t : ℕ) : (vals t g').length = (vals t g).length := by
  unfold Same at h
  unfold vals
  induction h with
  | nil => rfl
  | cons h1 _ ih =>
    rw [List.filter_cons, List.filter_cons, ← h1.1]
    split
    · simpa using ih
    · exact ih

theorem write_spec (t : ℕ) (g : List (Node d E)) (as : List (Pt d)) :
    ((vals t g).length ≤ as.length → ∃ g', write t g as = .ok g' ∧ Same g g' ∧ vals t g' = as.take (vals t g).length ∧ ∀ t', t' ≠ t → vals t' g' = vals t' g) ∧
    (as.length < (vals t g).length → write t g as = .error .indexError) := by
  induction g generalizing as with
  | nil => exact ⟨fun _ => ⟨[], rfl, List.Forall₂.nil, rfl, fun _ _ => rfl⟩, fun h => absurd h (Nat.not_lt_zero _)⟩
  | cons n g ih =>
    by_cases hn : n.t = t
    · have hc : (vals t (n :: g)).length = (vals t g).length + 1 := by unfold vals; rw [List.filter_cons, if_pos (by simpa using hn)]; simp
      rw [hc]
      cases as with
      | nil =>
        refine ⟨fun h => by simp at h, fun _ => ?_⟩
        unfold write; rw [if_pos hn]
      | cons a as =>
        obtain ⟨i1, i2⟩ := ih as
        constructor
        · intro h
          obtain ⟨g', w1, w2, w3, w4⟩ := i1 (by simpa using h)
          refine ⟨{ n with v := a } :: g', ?_, List.Forall₂.cons ⟨rfl, rfl, rfl⟩ w2, ?_, ?_⟩
          · unfold write; rw [if_pos hn]; simp only [w1]
          · rw [List.take_succ_cons, ← w3]; unfold vals; rw [List.filter_cons, if_pos (by simpa using hn)]; rfl
          · intro t' ht'
            have h1 : n.t ≠ t' := fun h => ht' (h.symm.trans hn)
            have := w4 t' ht'
            unfold vals at this ⊢
            rw [List.filter_cons, if_neg (by simpa using h1), List.filter_cons, if_neg (by simpa using h1)]
            exact this
        · intro h
          unfold write; rw [if_pos hn]; simp only [i2 (by simpa using h)]
    · have hc : vals t (n :: g) = vals t g := by unfold vals; rw [List.filter_cons, if_neg (by simpa using hn)]
      rw [hc]
      obtain ⟨i1, i2⟩ := ih as
      constructor
      · intro h
        obtain ⟨g', w1, w2, w3, w4⟩ := i1 h
        refine ⟨n :: g', ?_, List.Forall₂.cons ⟨rfl, rfl, rfl⟩ w2, ?_, ?_⟩
        · unfold write; rw [if_neg hn]; simp only [w1]
        · rw [← w3]; unfold vals; rw [List.filter_cons, if_neg (by simpa using hn)]
        · intro t' ht'
          have := w4 t' ht'
          unfold vals at this ⊢
          rw [List.filter_cons, List.filter_cons]
          split
          · simpa using this
          · exact this
      · intro h
        unfold write; rw [if_neg hn]; simp only [i2 h]

theorem newAlphas_length (dist : Pt d → Pt d → ℚ) (cand : ℕ → ℕ → List (Pt d) → List (Pt d)) (t : ℕ) (A S : List (Pt d)) :
    (newAlphas dist cand t A S).length = if t = 0 then 1 else A.length := by
  by_cases ht : t = 0
  · subst ht; rfl
  · rw [if_neg ht]; exact (newAlphas_later dist cand t ht A S).1

/-- A step can be processed. -/
def StepOk (samples : List (List (Pt d))) (g : List (Node d E)) (t : ℕ) : Prop := t < samples.length ∧ vals t g ≠ [] ∧ (t = 0 → (vals t g).length = 1)

theorem loop_spec (dist : Pt d → Pt d → ℚ) (cand : ℕ → ℕ → List (Pt d) → List (Pt d)) (samples : List (List (Pt d))) (g : List (Node d E)) (ts : List ℕ) (hnd : ts.Nodup) (gn : List (Node d E))
    (hgn : Same g gn) (ds : List ℚ) :
    ((∀ t ∈ ts, StepOk samples g t) → ∃ gn', loop dist cand samples g ts gn ds = .ok (gn', ds ++ ts.map (fun t => setDistance dist (vals t g) (samples.getD t []))) ∧ Same g gn' ∧
      (∀ t ∈ ts, vals t gn' = newAlphas dist cand t (vals t g) (samples.getD t [])) ∧ ∀ t, t ∉ ts → vals t gn' = vals t gn) ∧
    ((∃ r, loop dist cand samples g ts gn ds = .ok r) → ∀ t ∈ ts, StepOk samples g t) := by
  induction ts generalizing gn ds with
  | nil => exact ⟨fun _ => ⟨gn, by simp [loop], hgn, by simp, fun _ _ => rfl⟩, fun _ t ht => by cases ht⟩
  | cons t ts ih =>
    have hts := List.nodup_cons.1 hnd
    by_cases hlen : t < samples.length
    swap
    · have hnone : samples[t]? = none := List.getElem?_eq_none (by omega)
      refine ⟨fun h => absurd (h t List.mem_cons_self).1 hlen, ?_⟩
      rintro ⟨r, hr⟩
      unfold loop at hr; rw [hnone] at hr; cases hr
    have hS : samples[t]? = some (samples.getD t []) := by
      rw [List.getD_eq_getElem?_getD, List.getElem?_eq_getElem hlen]; rfl
    by_cases hv : vals t g = []
    · refine ⟨fun h => absurd hv (h t List.mem_cons_self).2.1, ?_⟩
      rintro ⟨r, hr⟩
      unfold loop at hr; simp only [hS, if_pos hv] at hr; cases hr
    have hw := write_spec t gn (newAlphas dist cand t (vals t g) (samples.getD t []))
    rw [newAlphas_length, same_count hgn] at hw
    have hpos : 0 < (vals t g).length := List.length_pos_iff.2 hv
    by_cases h0 : t = 0 ∧ (vals t g).length ≠ 1
    · refine ⟨fun h => absurd ((h t List.mem_cons_self).2.2 h0.1) h0.2, ?_⟩
      rintro ⟨r, hr⟩
      unfold loop at hr
      simp only [hS, if_neg hv] at hr
      rw [hw.2 (by rw [if_pos h0.1]; omega)] at hr
      cases hr
    have hle : (if t = 0 then 1 else (vals t g).length) = (vals t g).length := by
      split
      · rename_i ht
        by_contra hc
        exact h0 ⟨ht, fun h => hc h.symm⟩
      · rfl
    obtain ⟨g1, w1, w2, w3, w4⟩ := hw.1 (by rw [hle])
    have hstep : StepOk samples g t := ⟨hlen, hv, fun ht => by
      by_contra hc
      exact h0 ⟨ht, hc⟩⟩
    have hstep' : loop dist cand samples g (t :: ts) gn ds = loop dist cand samples g ts g1 (ds ++ [setDistance dist (vals t g) (samples.getD t [])]) := by
      conv_lhs => unfold loop
      simp only [hS, if_neg hv, w1]
    obtain ⟨i1, i2⟩ := ih hts.2 g1 (same_trans hgn w2) (ds ++ [setDistance dist (vals t g) (samples.getD t [])])
    constructor
    · intro h
      obtain ⟨gn', l1, l2, l3, l4⟩ := i1 (fun t' ht' => h t' (List.mem_cons_of_mem _ ht'))
      refine ⟨gn', ?_, l2, ?_, ?_⟩
      · rw [hstep', l1]; simp
      · intro t' ht'
        rcases List.mem_cons.1 ht' with rfl | ht'
        · rw [l4 t' hts.1, w3]
          have : (newAlphas dist cand t' (vals t' g) (samples.getD t' [])).length = (vals t' g).length := by rw [newAlphas_length, hle]
          rw [← this, List.take_length]
        · exact l3 t' ht'
      · intro t' ht'
        simp only [List.mem_cons, not_or] at ht'
        rw [l4 t' ht'.2, w4 t' ht'.1]
    · rintro ⟨r, hr⟩ t' ht'
      rcases List.mem_cons.1 ht' with rfl | ht'
      · exact hstep
      · rw [hstep'] at hr
        exact i2 ⟨r, hr⟩ t' ht'

/-- A run of the refinement. -/
theorem refine_run (dist : Pt d → Pt d → ℚ) (cand : ℕ → ℕ → List (Pt d) → List (Pt d)) (samples : List (List (Pt d))) (g g' : List (Node d E)) (D : List (ℚ × ℚ))
    (h : refine dist cand samples g = .ok (g', D)) :
    (∀ t, t < nSteps g → StepOk samples g t) ∧ Same g g' ∧ (∀ t, t < nSteps g → vals t g' = newAlphas dist cand t (vals t g) (samples.getD t [])) ∧
    D = (List.range (nSteps g)).map (fun t => (setDistance dist (vals t g) (samples.getD t []), setDistance dist (vals t g') (samples.getD t []))) := by
  unfold refine at h
  cases hl : loop dist cand samples g (List.range (nSteps g)) g [] with
  | error e => rw [hl] at h; cases h
  | ok r =>
    have hspec := loop_spec dist cand samples g (List.range (nSteps g)) List.nodup_range g (same_refl g) []
    have hok := hspec.2 ⟨r, hl⟩
    obtain ⟨gn', l1, l2, l3, l4⟩ := hspec.1 hok
    rw [hl] at l1
    obtain rfl := Except.ok.inj l1
    rw [hl] at h
    simp only [List.nil_append, Except.ok.injEq, Prod.mk.injEq] at h
    obtain ⟨rfl, rfl⟩ := h
    refine ⟨fun t ht => hok t (List.mem_range.2 ht), l2, fun t ht => l3 t (List.mem_range.2 ht), ?_⟩
    rw [List.zip_map']

end PyF.Refine
