import Verif.Pmf.QrfModel
import Verif.Pmf.Props
import Verif.Reshape.Props
import Mathlib.Tactic.Positivity

/-! Property C313: `predict_pmf` of a quantile forest. -/

namespace PyF.Pmf
open PyF

/-- The probabilities when the edges are accepted. -/
def pmfVal (n : Nat) (edges v : List ℚ) : List ℚ := (diff (cum v edges)).map (fun z : Int => (z : ℚ) / (n : ℚ))

theorem pmf_ok (n : Nat) (edges v : List ℚ) (hs : edges.Pairwise (· ≤ ·)) (h2 : 2 ≤ edges.length) :
    pmf n v edges = .ok (pmfVal n edges v) := by
  have h1 : edgesOk edges = true := (edgesOk_iff edges).2 hs
  have h3 : edges.isEmpty = false := by
    cases edges with
    | nil => simp at h2
    | cons a l => rfl
  simp [pmf, histogram, h1, h3, pmfVal]

theorem pmfVal_sum (n : Nat) (edges v : List ℚ) (hs : edges.Pairwise (· ≤ ·)) (h2 : 2 ≤ edges.length) :
    (pmfVal n edges v).sum = (v.countP (fun x => decide (inRange edges x)) : ℚ) / n := by
  unfold pmfVal
  have hl : ∀ l : List Int, (l.map (fun z : Int => (z : ℚ) / (n : ℚ))).sum = (l.sum : ℚ) / n := by
    intro l
    induction l with
    | nil => simp
    | cons a l ih =>
      rw [List.map_cons, List.sum_cons, ih, List.sum_cons]
      push_cast
      ring
  rw [hl, sum_diff_cum v edges hs h2]
  push_cast
  rfl

theorem mapOk_ok {α β : Type} (f : α → Except PyErr β) (g : α → β) (l : List α) (h : ∀ a ∈ l, f a = .ok (g a)) :
    mapOk f l = .ok (l.map g) := by
  induction l with
  | nil => rfl
  | cons a l ih =>
    rw [mapOk, h a (by simp), ih (fun b hb => h b (by simp [hb]))]
    rfl

theorem pmfArray_ok (n : Nat) (edges : List ℚ) (hs : edges.Pairwise (· ≤ ·)) (h2 : 2 ≤ edges.length) (q : List (List (List ℚ))) :
    pmfArray n edges q = .ok (q.map (fun r => r.map (pmfVal n edges))) :=
  mapOk_ok _ _ _ (fun _ _ => mapOk_ok _ _ _ (fun v _ => pmf_ok n edges v hs h2))

theorem qrfPmf_eq {L : Type} (n : Nat) (edges : List ℚ) (targets : List L) (levels : List ℚ) {rows : Nat}
    (q : Fin rows → Fin targets.length → Fin levels.length → ℚ) (a : List (List (List ℚ)))
    (h : (Reshape.toDf targets levels q).bind Reshape.qrfToNumpy = .ok a) : qrfPmf n edges targets levels q = pmfArray n edges a := by
  unfold qrfPmf
  cases h1 : Reshape.toDf targets levels q with
  | error e => rw [h1] at h; cases h
  | ok df =>
    rw [h1] at h
    have h' : Reshape.qrfToNumpy df = .ok a := h
    simp only [h']

/-- **C313.** The probabilities of a row and target add up to the number of the returned quantiles inside the bins divided by
the number of levels of the object, whatever levels were asked for. If all predicted quantiles are inside, the total is the number of
levels asked for over the number of levels of the object, for every target. -/
theorem C313_total {L : Type} (n : Nat) (edges : List ℚ) (targets : List L) (levels : List ℚ) {rows : Nat}
    (q : Fin rows → Fin targets.length → Fin levels.length → ℚ) (hn : 0 < rows) (ht : targets ≠ []) (hl : levels ≠ [])
    (hnd : levels.Nodup) (hs : edges.Pairwise (· ≤ ·)) (h2 : 2 ≤ edges.length) (hin : ∀ i j l, inRange edges (q i j l)) :
    ∃ P, qrfPmf n edges targets levels q = .ok P ∧ P.length = rows ∧
      (∀ i < rows, (P.getD i []).length = targets.length) ∧
      ∀ i < rows, ∀ j < targets.length, (((P.getD i []).getD j []).sum : ℚ) = (levels.length : ℚ) / n := by
  obtain ⟨r, hr, hspec⟩ := Reshape.C10_qrf_layout targets levels q hn ht hl hnd
  refine ⟨_, (qrfPmf_eq n edges targets levels q _ hr).trans (pmfArray_ok n edges hs h2 _), ?_, ?_, ?_⟩
  · simp [Reshape.asLists]
  · intro i hi
    simp [Reshape.asLists, hi]
  · intro i hi j hj
    have e : ((((Reshape.asLists r).map (fun r => r.map (pmfVal n edges))).getD i []).getD j [])
        = pmfVal n edges (List.ofFn (fun l => r ⟨i, hi⟩ ⟨j, hj⟩ l)) := by
      simp [Reshape.asLists, hi, hj]
    rw [e, pmfVal_sum n edges _ hs h2]
    congr 2
    rw [List.countP_eq_length.2, List.length_ofFn]
    intro a ha
    obtain ⟨l, rfl⟩ := List.mem_ofFn.1 ha
    obtain ⟨j', l', -, hq⟩ := hspec ⟨i, hi⟩ ⟨j, hj⟩ l
    rw [hq]
    exact decide_eq_true (hin _ _ _)

/-- **C313.** So it is a probability mass function exactly if as many levels were asked for as the object has. -/
theorem C313_one {L : Type} (n : Nat) (hn0 : 0 < n) (edges : List ℚ) (targets : List L) (levels : List ℚ) {rows : Nat}
    (q : Fin rows → Fin targets.length → Fin levels.length → ℚ) (hn : 0 < rows) (ht : targets ≠ []) (hl : levels ≠ [])
    (hnd : levels.Nodup) (hs : edges.Pairwise (· ≤ ·)) (h2 : 2 ≤ edges.length) (hin : ∀ i j l, inRange edges (q i j l)) :
    ∃ P, qrfPmf n edges targets levels q = .ok P ∧
      ∀ i < rows, ∀ j < targets.length, ((((P.getD i []).getD j []).sum : ℚ) = 1 ↔ levels.length = n) := by
  obtain ⟨P, hP, -, -, hsum⟩ := C313_total n edges targets levels q hn ht hl hnd hs h2 hin
  refine ⟨P, hP, fun i hi j hj => ?_⟩
  rw [hsum i hi j hj]
  have hpos : (0 : ℚ) < n := by exact_mod_cast hn0
  rw [div_eq_one_iff_eq hpos.ne']
  exact_mod_cast Iff.rfl

/-- **C313.** The distributions are those of the targets' own quantiles, for all forecasts and bins, exactly with a single target or a
single level; otherwise already that of the first target mixes in the quantiles of others. -/
theorem C313_own_iff {L : Type} (n : Nat) (hn0 : 0 < n) (targets : List L) (levels : List ℚ) {rows : Nat} (hn : 0 < rows)
    (ht : targets ≠ []) (hl : levels ≠ []) (hnd : levels.Nodup) :
    (∀ (q : Fin rows → Fin targets.length → Fin levels.length → ℚ) (edges : List ℚ), edges.Pairwise (· ≤ ·) → 2 ≤ edges.length →
      ∃ P, qrfPmf n edges targets levels q = .ok P ∧ ∀ (i : Fin rows) (j : Fin targets.length),
        pmf n (List.ofFn (q i j)) edges = .ok ((P.getD i []).getD j [])) ↔
      targets.length = 1 ∨ levels.length = 1 := by
  have htp : 0 < targets.length := List.length_pos_iff.2 ht
  have hlp : 0 < levels.length := List.length_pos_iff.2 hl
  have key : ∀ (q : Fin rows → Fin targets.length → Fin levels.length → ℚ) (edges : List ℚ), edges.Pairwise (· ≤ ·) → 2 ≤ edges.length →
      ∃ (r : Fin rows → Fin targets.length → Fin levels.length → ℚ) (P : List (List (List ℚ))), (qrfPmf n edges targets levels q = .ok P ∧ ∀ (i : Fin rows) (j : Fin targets.length),
        (P.getD i []).getD j [] = pmfVal n edges (List.ofFn (r i j))) ∧
      ∀ (i : Fin rows) (j : Fin targets.length) (l : Fin levels.length), ∃ (j' : Fin targets.length) (l' : Fin levels.length),
          j'.val * levels.length + l'.val = l.val * targets.length + j.val ∧ r i j l = q i j' l' := by
    intro q edges hs h2
    obtain ⟨r, hr, hspec⟩ := Reshape.C10_qrf_layout targets levels q hn ht hl hnd
    refine ⟨r, _, ⟨(qrfPmf_eq n edges targets levels q _ hr).trans (pmfArray_ok n edges hs h2 _), ?_⟩, hspec⟩
    intro i j
    simp [Reshape.asLists]
  constructor
  · intro hall
    by_contra hc
    push Not at hc
    obtain ⟨hT, hK⟩ := hc
    set q : Fin rows → Fin targets.length → Fin levels.length → ℚ := fun _ j _ => if j.val = 0 then 0 else 10 with hq
    have hs : ([-1, 1] : List ℚ).Pairwise (· ≤ ·) := by norm_num
    obtain ⟨r, P, ⟨hP, hr⟩, hspec⟩ := key q [-1, 1] hs (by simp)
    obtain ⟨P', hP', hown⟩ := hall q [-1, 1] hs (by simp)
    rw [hP] at hP'
    obtain rfl := Except.ok.inj hP'
    have h := hown ⟨0, hn⟩ ⟨0, htp⟩
    rw [hr, pmf_ok n _ _ hs (by simp)] at h
    have hsum := congrArg List.sum (Except.ok.inj h)
    rw [pmfVal_sum n _ _ hs (by simp), pmfVal_sum n _ _ hs (by simp)] at hsum
    have hpos : (n : ℚ) ≠ 0 := by exact_mod_cast hn0.ne'
    rw [div_left_inj' hpos] at hsum
    have hcount : (List.ofFn (q ⟨0, hn⟩ ⟨0, htp⟩)).countP (fun x => decide (inRange [-1, 1] x)) =
        (List.ofFn (r ⟨0, hn⟩ ⟨0, htp⟩)).countP (fun x => decide (inRange [-1, 1] x)) := by exact_mod_cast hsum
    rw [List.countP_eq_length.2, List.length_ofFn] at hcount
    · have hall2 := List.countP_eq_length.1 (hcount.symm.trans (List.length_ofFn (f := r ⟨0, hn⟩ ⟨0, htp⟩)).symm)
      have hmem := hall2 (r ⟨0, hn⟩ ⟨0, htp⟩ ⟨levels.length - 1, by omega⟩) (List.mem_ofFn.2 ⟨_, rfl⟩)
      obtain ⟨j', l', he, hv⟩ := hspec ⟨0, hn⟩ ⟨0, htp⟩ ⟨levels.length - 1, by omega⟩
      have hj : j'.val ≠ 0 := by
        intro h0
        rw [h0] at he
        have hl' := l'.2
        simp only [Nat.zero_mul, Nat.zero_add, Nat.add_zero] at he
        have hT2 : 2 ≤ targets.length := by omega
        have : (levels.length - 1) * 2 ≤ (levels.length - 1) * targets.length := Nat.mul_le_mul_left _ hT2
        omega
      rw [hv, hq] at hmem
      simp only [if_neg hj] at hmem
      have := of_decide_eq_true hmem
      obtain ⟨lo, hi, -, h2, -, h4⟩ := this
      simp at h2
      subst h2
      norm_num at h4
    · intro a ha
      obtain ⟨l, rfl⟩ := List.mem_ofFn.1 ha
      apply decide_eq_true
      simp only [hq, if_true]
      exact ⟨-1, 1, rfl, rfl, by norm_num, by norm_num⟩
  · intro hc q edges hs h2
    obtain ⟨r, P, ⟨hP, hr⟩, hspec⟩ := key q edges hs h2
    refine ⟨P, hP, fun i j => ?_⟩
    rw [hr, pmf_ok n edges _ hs h2]
    have : r i j = q i j := by
      funext l
      obtain ⟨j', l', he, hv⟩ := hspec i j l
      rw [hv]
      have hj := j.2
      have hj' := j'.2
      have hl1 := l.2
      have hl' := l'.2
      rcases hc with h | h
      · have e1 : j' = j := Fin.ext (by omega)
        have e2 : l' = l := Fin.ext (by
          have a1 : j.val = 0 := by omega
          have a2 : j'.val = 0 := by omega
          rw [a1, a2, h] at he
          omega)
        rw [e1, e2]
      · have e2 : l' = l := Fin.ext (by omega)
        have e1 : j' = j := Fin.ext (by
          have a1 : l.val = 0 := by omega
          have a2 : l'.val = 0 := by omega
          rw [a1, a2, h] at he
          omega)
        rw [e1, e2]
    rw [this]

theorem mapOk_iff {α β : Type} (f : α → Except PyErr β) (l : List α) (r : List β) :
    mapOk f l = .ok r ↔ List.Forall₂ (fun a b => f a = .ok b) l r := by
  induction l generalizing r with
  | nil =>
    rw [mapOk, List.forall₂_nil_left_iff]
    exact ⟨fun h => by injection h with h; exact h.symm, fun h => by rw [h]⟩
  | cons a l ih =>
    rw [mapOk, List.forall₂_cons_left_iff]
    cases ha : f a with
    | error e =>
      constructor
      · intro h; cases h
      · rintro ⟨b, u, hb, _, _⟩; cases hb
    | ok b =>
      cases hl : mapOk f l with
      | error e =>
        constructor
        · intro h; cases h
        · rintro ⟨c, u, _, hu, _⟩
          have := (ih u).2 hu
          rw [hl] at this
          cases this
      | ok bs =>
        constructor
        · intro h
          injection h with h
          exact ⟨b, bs, rfl, (ih bs).1 hl, h.symm⟩
        · rintro ⟨c, u, hc, hu, hr⟩
          injection hc with hc
          have := (ih u).2 hu
          rw [hl] at this
          injection this with this
          rw [hr, hc, this]

/-- **C313** (all or nothing): `predict_pmf` returns iff it does so for every row and target, and then it returns exactly these distributions, row by row. -/
theorem C313_all (n : Nat) (edges : List ℚ) (q : List (List (List ℚ))) (P : List (List (List ℚ))) :
    pmfArray n edges q = .ok P ↔ List.Forall₂ (List.Forall₂ (fun v p => pmf n v edges = .ok p)) q P := by
  unfold pmfArray
  rw [mapOk_iff]
  constructor
  · intro h
    exact h.imp (fun a b hab => (mapOk_iff _ a b).1 hab)
  · intro h
    exact h.imp (fun a b hab => (mapOk_iff _ a b).2 hab)

end PyF.Pmf
