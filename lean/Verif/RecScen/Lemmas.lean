import Verif.RecScen.Spec
import Mathlib.Tactic.Ring
import Mathlib.Data.List.Count

namespace PyF.RecScen
open PyF
variable {K : Type}

theorem mapM_ok_len {A B : Type} (f : A → Except PyErr B) : ∀ (l : List A) (r : List B), l.mapM f = .ok r → r.length = l.length ∧ ∀ (i : Nat) (a : A), l[i]? = some a → ∃ b, r[i]? = some b ∧ f a = .ok b := by
  intro l
  induction l with
  | nil => intro r h; simp only [List.mapM_nil] at h; cases h; simp
  | cons x l ih =>
    intro r h
    rw [List.mapM_cons] at h
    cases hx : f x with
    | error e => rw [hx] at h; cases h
    | ok b =>
      rw [hx] at h
      cases hl : l.mapM f with
      | error e => rw [hl] at h; cases h
      | ok bs =>
        rw [hl] at h
        cases h
        obtain ⟨h1, h2⟩ := ih bs hl
        refine ⟨by simp [h1], ?_⟩
        intro i a hi
        cases i with
        | zero => simp only [List.getElem?_cons_zero, Option.some.injEq] at hi ⊢; subst hi; exact ⟨b, rfl, hx⟩
        | succ i => simp only [List.getElem?_cons_succ] at hi ⊢; exact h2 i a hi

theorem mapM_ok_of {A B : Type} (f : A → Except PyErr B) : ∀ (l : List A), (∀ a ∈ l, ∃ b, f a = .ok b) → ∃ r, l.mapM f = .ok r := by
  intro l
  induction l with
  | nil => intro _; exact ⟨[], rfl⟩
  | cons x l ih =>
    intro h
    obtain ⟨b, hb⟩ := h x List.mem_cons_self
    obtain ⟨r, hr⟩ := ih (fun a ha => h a (List.mem_cons_of_mem _ ha))
    exact ⟨b :: r, by rw [List.mapM_cons, hb, hr]; rfl⟩

theorem mapM_err {A B : Type} (f : A → Except PyErr B) (e : PyErr) : ∀ (l : List A), l ≠ [] → (∀ a ∈ l, f a = .error e) → l.mapM f = .error e := by
  intro l hl h
  cases l with
  | nil => exact absurd rfl hl
  | cons x l => rw [List.mapM_cons, h x List.mem_cons_self]; rfl

/-- The block of an hour: exists exactly if something can be drawn. -/
theorem block_ok (errs : List (List K)) (nTe nSc : Nat) (draw : Nat → Nat → Nat) (hd : ∀ s k, errs ≠ [] → draw s k < errs.length) :
    ((nSc = 0 ∨ (errs = [] ∧ nTe ≠ 0)) → block errs nTe nSc draw = .error .valueError) ∧
      (nSc ≠ 0 → (errs = [] → nTe = 0) → ∃ b, block errs nTe nSc draw = .ok b ∧ b.length = nSc ∧
        ∀ (s k : Nat), s < nSc → k < nTe → ∃ sc row, b[s]? = some sc ∧ sc[k]? = some row ∧ errs[draw s k]? = some row) := by
  constructor
  · intro h
    unfold block
    by_cases hs : nSc = 0
    · subst hs; rfl
    · obtain ⟨h1, h2⟩ := h.resolve_left hs
      have := mapM_err (fun (s : Nat) => drawn errs nTe (draw s)) .valueError (List.range nSc) (by simpa using hs) (by
          intro s _
          have hc : choice errs.length nTe (draw s) = .error .valueError := by unfold choice; exact if_pos ⟨by simp [h1], h2⟩
          simp only [drawn, hc])
      rw [this]
  · intro hs he
    have hf : ∀ s, ∃ r, drawn errs nTe (draw s) = .ok r ∧ ∀ k < nTe, ∃ row, r[k]? = some row ∧ errs[draw s k]? = some row := by
      intro s
      have hc : choice errs.length nTe (draw s) = .ok ((List.range nTe).map (draw s)) := by
        unfold choice
        refine if_neg ?_
        rintro ⟨h1, h2⟩
        exact h2 (he (List.length_eq_zero_iff.1 h1))
      simp only [drawn, hc]
      have hlt : ∀ p ∈ (List.range nTe).map (draw s), p < errs.length := by
        intro p hp
        obtain ⟨k, hk, rfl⟩ := List.mem_map.1 hp
        refine hd s k (fun h0 => ?_)
        have := he h0
        rw [List.mem_range] at hk
        omega
      obtain ⟨r, hr, hl⟩ := takeRows_ok_of_lt errs _ hlt
      refine ⟨r, hr, ?_⟩
      intro k hk
      have hm := (takeRows_ok_iff _ _ _).1 hr
      have hkr : k < r.length := by rw [hl]; simpa using hk
      refine ⟨r[k], List.getElem?_eq_getElem hkr, ?_⟩
      have h2 := congrArg (fun (l : List (Option (List K))) => l[k]?) hm
      simp only [List.getElem?_map, List.getElem?_eq_getElem hkr, List.getElem?_range hk, Option.map_some, Option.some.injEq] at h2
      exact h2
    obtain ⟨b, hb⟩ := mapM_ok_of (fun (s : Nat) => drawn errs nTe (draw s)) (List.range nSc) (fun s _ => (hf s).imp (fun _ h => h.1))
    obtain ⟨h1, h2⟩ := mapM_ok_len _ _ _ hb
    rw [List.length_range] at h1
    refine ⟨b, ?_, h1, ?_⟩
    · unfold block
      rw [hb]
      cases b with
      | nil => exact absurd h1.symm hs
      | cons _ _ => rfl
    · intro s k hs' hk
      obtain ⟨sc, hsc, hfs⟩ := h2 s s (List.getElem?_range hs')
      obtain ⟨r, hr, hrow⟩ := hf s
      rw [hr] at hfs
      cases hfs
      obtain ⟨row, h3, h4⟩ := hrow k hk
      exact ⟨sc, row, hsc, h3, h4⟩

/-- What a row of the array looks like once its hour is done: for every scenario a whole error row of the hour. -/
def Done [Zero K] (w wTe nSc : Nat) (E : List (List K)) (d : Nat → Nat) (row : List (List K)) : Prop :=
  row.length = wTe ∧ ∃ pick : Nat → List K, (∀ s < nSc, E[d s]? = some (pick s)) ∧ ∀ j < wTe, row[j]? = some ((List.range nSc).map (fun s => col w (pick s) j))

theorem assign_length [Zero K] (wTr wTe h : Nat) (b : List (List (List K))) : ∀ (hs : List Nat) (k : Nat) (arr : List (List (List K))), arr.length = hs.length →
    (assign wTr wTe h b k hs arr).length = hs.length := by
  intro hs
  induction hs with
  | nil => intro k arr h; cases arr <;> simp [assign]
  | cons x hs ih =>
    intro k arr ha
    cases arr with
    | nil => cases ha
    | cons r arr =>
      simp only [List.length_cons, Nat.add_right_cancel_iff] at ha
      simp only [assign]
      split
      · simp [ih _ _ ha]
      · simp [ih _ _ ha]

theorem assign_spec [Zero K] (wTr wTe h nSc : Nat) (b : List (List (List K))) (E : List (List K)) (draw : Nat → Nat → Nat) (hb : b.length = nSc) : ∀ (hs : List Nat) (k : Nat) (arr : List (List (List K))), arr.length = hs.length →
    (∀ (s k' : Nat), s < nSc → k' < k + hs.countP (fun x => decide (x = h)) → ∃ sc row, b[s]? = some sc ∧ sc[k']? = some row ∧ E[draw s k']? = some row) →
    ∀ (i hi : Nat) (row : List (List K)), hs[i]? = some hi → (assign wTr wTe h b k hs arr)[i]? = some row → (hi = h → Done wTr wTe nSc E (fun s => draw s (k + (hs.take i).countP (fun x => decide (x = h)))) row) ∧ (hi ≠ h → arr[i]? = some row) := by
  intro hs
  induction hs with
  | nil => intro k arr _ _ i hi row h1; simp at h1
  | cons x hs ih =>
    intro k arr ha hE i hi row h1 h2
    cases arr with
    | nil => cases ha
    | cons r arr =>
      simp only [List.length_cons, Nat.add_right_cancel_iff] at ha
      simp only [assign] at h2
      by_cases hx : x = h
      · rw [if_pos hx] at h2
        have hc : (x :: hs).countP (fun x => decide (x = h)) = hs.countP (fun x => decide (x = h)) + 1 := by simp [hx]
        cases i with
        | zero =>
          simp only [List.getElem?_cons_zero, Option.some.injEq] at h1 h2 ⊢
          subst h1
          refine ⟨fun _ => ?_, fun hne => absurd hx hne⟩
          subst h2
          refine ⟨by simp, fun s => (b.getD s []).getD k [], ?_, ?_⟩
          · intro s hs'
            obtain ⟨sc, row', g1, g2, g3⟩ := hE s k hs' (by rw [hc]; omega)
            simp only [List.getD_eq_getElem?_getD, g1, g2, Option.getD_some, List.take_zero, List.countP_nil, Nat.add_zero]
            exact g3
          · intro j hj
            rw [List.getElem?_map, List.getElem?_range hj, Option.map_some, Option.some.injEq]
            apply List.ext_getElem?
            intro s
            rw [List.getElem?_map, List.getElem?_map]
            by_cases hs' : s < nSc
            · rw [List.getElem?_range hs', List.getElem?_eq_getElem (by rw [hb]; exact hs')]
              simp only [Option.map_some, List.getD_eq_getElem?_getD, List.getElem?_eq_getElem (show s < b.length by rw [hb]; exact hs'), Option.getD_some]
            · rw [List.getElem?_eq_none (by rw [hb]; omega), List.getElem?_eq_none (by rw [List.length_range]; omega)]
              rfl
        | succ i =>
          simp only [List.getElem?_cons_succ] at h1 h2 ⊢
          have h3 := ih (k + 1) arr ha (fun s k' g1 g2 => hE s k' g1 (by rw [hc]; omega)) i hi row h1 h2
          have h4 : k + 1 + (hs.take i).countP (fun x => decide (x = h)) = k + ((x :: hs).take (i + 1)).countP (fun x => decide (x = h)) := by
            rw [List.take_succ_cons, List.countP_cons_of_pos (by simp [hx])]; omega
          rwa [h4] at h3
      · rw [if_neg hx] at h2
        have hc : (x :: hs).countP (fun x => decide (x = h)) = hs.countP (fun x => decide (x = h)) := by simp [hx]
        cases i with
        | zero =>
          simp only [List.getElem?_cons_zero, Option.some.injEq] at h1 h2 ⊢
          subst h1
          exact ⟨fun he => absurd he hx, fun _ => h2⟩
        | succ i =>
          simp only [List.getElem?_cons_succ] at h1 h2 ⊢
          have h3 := ih k arr ha (fun s k' g1 g2 => hE s k' g1 (by rw [hc]; omega)) i hi row h1 h2
          have h4 : k + (hs.take i).countP (fun x => decide (x = h)) = k + ((x :: hs).take (i + 1)).countP (fun x => decide (x = h)) := by
            rw [List.take_succ_cons, List.countP_cons_of_neg (by simp [hx])]
          rwa [h4] at h3

theorem ofHour_length (f : Frame K) (h : Nat) : (ofHour f h).length = (f.rows.map (·.1)).countP (fun x => decide (x = h)) := by
  unfold ofHour
  rw [List.length_map, List.countP_map, List.countP_eq_length_filter]
  rfl

theorem mem_ofHour {f : Frame K} {h : Nat} {e : List K} : e ∈ ofHour f h ↔ (h, e) ∈ f.rows := by
  unfold ofHour
  simp only [List.mem_map, List.mem_filter, decide_eq_true_eq]
  constructor
  · rintro ⟨p, ⟨h1, rfl⟩, rfl⟩; exact h1
  · intro h1; exact ⟨(h, e), ⟨h1, rfl⟩, rfl⟩

theorem ofHour_eq_nil {f : Frame K} {h : Nat} : ofHour f h = [] ↔ ∀ q ∈ f.rows, q.1 ≠ h := by
  rw [List.eq_nil_iff_forall_not_mem]
  constructor
  · intro H q hq he
    exact H q.2 (mem_ofHour.2 (by rw [← he]; exact hq))
  · intro H e he
    exact H _ (mem_ofHour.1 he) rfl

/-- An hour at which the pass succeeds. -/
def Good (errs yhat : Frame K) (nSc h : Nat) : Prop := nSc ≠ 0 ∧ (ofHour errs h = [] → (ofHour yhat h).length = 0) ∧ (errs.width = yhat.width ∨ errs.width = 1)

theorem step_spec [Zero K] (errs yhat : Frame K) (nSc : Nat) (draw : Nat → Nat → Nat → Nat) (hd : ∀ h s k, ofHour errs h ≠ [] → draw h s k < (ofHour errs h).length) (h : Nat)
    (arr : List (List (List K))) (ha : arr.length = yhat.rows.length) :
    (¬ Good errs yhat nSc h → step errs yhat nSc draw h arr = .error .valueError) ∧
      (Good errs yhat nSc h → ∃ arr', step errs yhat nSc draw h arr = .ok arr' ∧ arr'.length = yhat.rows.length ∧
        ∀ (i hi : Nat) (row : List (List K)), (yhat.rows.map (·.1))[i]? = some hi → arr'[i]? = some row → (hi = h → Done errs.width yhat.width nSc (ofHour errs h) (fun s => draw h s (((yhat.rows.map (·.1)).take i).countP (fun x => decide (x = h)))) row) ∧ (hi ≠ h → arr[i]? = some row)) := by
  obtain ⟨h1, h2⟩ := block_ok (ofHour errs h) (ofHour yhat h).length nSc (draw h) (fun s k => hd h s k)
  constructor
  · intro hg
    unfold step
    by_cases hb : nSc = 0 ∨ (ofHour errs h = [] ∧ (ofHour yhat h).length ≠ 0)
    · rw [h1 hb]
    · push Not at hb
      obtain ⟨b, hb', _⟩ := h2 hb.1 hb.2
      rw [hb']
      simp only
      refine if_neg (fun hw => hg ⟨hb.1, hb.2, hw⟩)
  · rintro ⟨g1, g2, g3⟩
    obtain ⟨b, hb, hl, hp⟩ := h2 g1 g2
    refine ⟨assign errs.width yhat.width h b 0 (yhat.rows.map (·.1)) arr, ?_, ?_, ?_⟩
    · unfold step
      rw [hb]
      simp only
      exact if_pos g3
    · rw [assign_length _ _ _ _ _ _ _ (by rw [List.length_map]; exact ha), List.length_map]
    · have h5 := assign_spec errs.width yhat.width h nSc b (ofHour errs h) (draw h) hl (yhat.rows.map (·.1)) 0 arr (by rw [List.length_map]; exact ha) ?_
      · simpa only [Nat.zero_add] using h5
      intro s k' hs hk
      rw [← ofHour_length, Nat.zero_add] at hk
      exact hp s k' hs hk

theorem loop_spec [Zero K] (errs yhat : Frame K) (nSc : Nat) (draw : Nat → Nat → Nat → Nat) (hd : ∀ h s k, ofHour errs h ≠ [] → draw h s k < (ofHour errs h).length) : ∀ (hs : List Nat), hs.Nodup →
    ∀ (arr : List (List (List K))), arr.length = yhat.rows.length →
    ((∃ h ∈ hs, ¬ Good errs yhat nSc h) → loop errs yhat nSc draw hs arr = .error .valueError) ∧
      ((∀ h ∈ hs, Good errs yhat nSc h) → ∃ arr', loop errs yhat nSc draw hs arr = .ok arr' ∧ arr'.length = yhat.rows.length ∧
        ∀ (i hi : Nat) (row : List (List K)), (yhat.rows.map (·.1))[i]? = some hi → arr'[i]? = some row → (hi ∈ hs → Done errs.width yhat.width nSc (ofHour errs hi) (fun s => draw hi s (((yhat.rows.map (·.1)).take i).countP (fun x => decide (x = hi)))) row) ∧ (hi ∉ hs → arr[i]? = some row)) := by
  intro hs
  induction hs with
  | nil =>
    intro _ arr ha
    refine ⟨fun h => by simp at h, fun _ => ⟨arr, rfl, ha, fun i hi row _ hr => ⟨fun h => absurd h List.not_mem_nil, fun _ => hr⟩⟩⟩
  | cons h hs ih =>
    intro hnd arr ha
    rw [List.nodup_cons] at hnd
    obtain ⟨s1, s2⟩ := step_spec errs yhat nSc draw hd h arr ha
    by_cases hg : Good errs yhat nSc h
    · obtain ⟨arr1, e1, l1, p1⟩ := s2 hg
      obtain ⟨i1, i2⟩ := ih hnd.2 arr1 l1
      constructor
      · rintro ⟨h', hm, hng⟩
        simp only [loop, e1]
        rcases List.mem_cons.1 hm with rfl | hm
        · exact absurd hg hng
        · exact i1 ⟨h', hm, hng⟩
      · intro hall
        obtain ⟨arr2, e2, l2, p2⟩ := i2 (fun h' hm => hall h' (List.mem_cons_of_mem _ hm))
        refine ⟨arr2, by simp only [loop, e1]; exact e2, l2, ?_⟩
        intro i hi row hh hr
        obtain ⟨q1, q2⟩ := p2 i hi row hh hr
        constructor
        · intro hm
          by_cases hin : hi ∈ hs
          · exact q1 hin
          · rcases List.mem_cons.1 hm with rfl | hm
            · exact (p1 i hi row hh (q2 hin)).1 rfl
            · exact absurd hm hin
        · intro hnm
          rw [List.mem_cons, not_or] at hnm
          exact (p1 i hi row hh (q2 hnm.2)).2 hnm.1
    · refine ⟨fun _ => by simp only [loop, s1 hg], fun hall => absurd (hall h List.mem_cons_self) hg⟩

theorem good_all {errs yhat : Frame K} {nSc : Nat} (hy : yhat.Ok) : (∀ h ∈ List.range 24, Good errs yhat nSc h) ↔ nSc ≠ 0 ∧ (errs.width = yhat.width ∨ errs.width = 1) ∧ Covers errs yhat := by
  constructor
  · intro H
    obtain ⟨g1, _, g3⟩ := H 0 (by simp)
    refine ⟨g1, g3, ?_⟩
    intro p hp
    by_contra hc
    push Not at hc
    have := (H p.1 (List.mem_range.2 (hy p hp).1)).2.1 (ofHour_eq_nil.2 hc)
    rw [List.length_eq_zero_iff, ofHour_eq_nil] at this
    exact this p hp rfl
  · rintro ⟨g1, g2, g3⟩ h _
    refine ⟨g1, ?_, g2⟩
    intro he
    rw [List.length_eq_zero_iff, ofHour_eq_nil]
    intro q hq hqh
    obtain ⟨r, hr, hrq⟩ := g3 q hq
    exact (ofHour_eq_nil.1 he) r hr (hrq.trans hqh)

theorem mapM_opt {A B : Type} (f : A → Option B) : ∀ (l : List A) (r : List B), r.length = l.length → (∀ (i : Nat) (a : A), l[i]? = some a → f a = r[i]?) → l.mapM f = some r := by
  intro l
  induction l with
  | nil => intro r h _; cases r with | nil => rfl | cons _ _ => cases h
  | cons x l ih =>
    intro r h H
    cases r with
    | nil => cases h
    | cons y r =>
      have h0 := H 0 x rfl
      have := ih r (by simpa using h) (fun i a hi => by have := H (i + 1) a (by simpa using hi); simpa using this)
      rw [List.mapM_cons, h0, this]
      rfl

end PyF.RecScen
