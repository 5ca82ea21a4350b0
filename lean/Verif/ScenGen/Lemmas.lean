import Verif.ScenGen.Model
import Mathlib.Tactic.Linarith
import Mathlib.Tactic.Ring
import Mathlib.Tactic.FieldSimp
import Mathlib.Tactic.Positivity

namespace PyF.ScenGen
open PyF

/-! ### Shapes -/

theorem sampleHour_ok {K : Type} (k n d : Nat) (hk : 1 ≤ k) (hd : 1 ≤ d) (hn : n ≠ 1) (draw : Nat → Nat → Nat → K) :
    ∃ f, sampleHour k n d draw = .ok f ∧ ∀ i j c, i < k → j < d → c < n → f i j c = draw i c j := by
  by_cases h1 : k = 1
  · subst h1
    by_cases h2 : d = 1
    · subst h2
      simp [sampleHour, squeeze, expandFirst, expandLast, swapLast, assign, hn, unsqueezeIdx]
      simp [fits, clampIdx, hn]
      rintro i j c rfl rfl _
      rfl
    · simp [sampleHour, squeeze, expandFirst, swapLast, assign, hn, h2, unsqueezeIdx]
      simp [fits, clampIdx, hn, h2]
      rintro i j c rfl _ _
      rfl
  · by_cases h2 : d = 1
    · subst h2
      simp [sampleHour, squeeze, expandLast, swapLast, assign, hn, h1, unsqueezeIdx]
      simp [fits, clampIdx, hn, h1]
      rintro i j c _ rfl _
      rfl
    · simp [sampleHour, squeeze, swapLast, assign, hn, h1, h2, unsqueezeIdx]
      simp [fits, clampIdx, hn, h1, h2]

theorem sampleHour_one {K : Type} (k d : Nat) (hd : 1 ≤ d) (draw : Nat → Nat → Nat → K) : sampleHour k 1 d draw = .error .valueError := by
  by_cases h1 : k = 1
  · subst h1
    by_cases h2 : d = 1
    · subst h2
      simp [sampleHour, squeeze, expandFirst, swapLast]
    · simp [sampleHour, squeeze, expandFirst, expandLast, swapLast, assign, fits, h2]
  · by_cases h2 : d = 1
    · subst h2
      simp [sampleHour, squeeze, swapLast, h1]
    · simp [sampleHour, squeeze, expandLast, swapLast, assign, fits, h1, h2]

theorem mem_uniqueHours {hours : List Nat} (hh : ∀ h ∈ hours, h < 24) (h : Nat) : h ∈ uniqueHours hours ↔ h ∈ hours := by
  unfold uniqueHours
  rw [List.mem_filter, List.mem_range]
  constructor
  · rintro ⟨_, h2⟩; simpa using h2
  · intro h2; exact ⟨hh h h2, by simpa using h2⟩

theorem nodup_uniqueHours (hours : List Nat) : (uniqueHours hours).Nodup := List.Nodup.filter _ List.nodup_range

/-- The loop of `sample`. -/
theorem sampleLoop_spec {K Cov : Type} (Phi : K → K) (pars : Pars Cov) (rvs : Nat → Cov → Nat → Nat → Nat → Nat → Nat → K) (dim n : Nat) (hd : 1 ≤ dim) (hn : n ≠ 1)
    (hours : List Nat) : ∀ (hs : List Nat) (c : Nat) (out : Nat → Nat → Nat → K), hs.Nodup → (∀ h ∈ hs, h ∈ hours) → (∀ h ∈ hs, pars h ≠ none) →
      ∃ out', sampleLoop Phi pars rvs dim n hours c hs out = .ok out' ∧
        (∀ i h, hours[i]? = some h → h ∉ hs → out' i = out i) ∧
        (∀ i h cov, hours[i]? = some h → h ∈ hs → pars h = some cov → ∀ s k, s < dim → k < n →
          out' i s k = Phi (rvs (c + hs.idxOf h) cov (hours.count h) n (maskPos hours h i) k s)) := by
  intro hs
  induction hs with
  | nil => intro c out _ _ _; exact ⟨out, rfl, fun _ _ _ _ => rfl, fun _ _ _ _ h => by simp at h⟩
  | cons h0 hs ih =>
    intro c out hnd hmem hpar
    unfold sampleLoop
    obtain ⟨cov0, e0⟩ := Option.ne_none_iff_exists'.1 (hpar h0 (by simp))
    obtain ⟨f, e1, e2⟩ := sampleHour_ok (hours.count h0) n dim (List.count_pos_iff.2 (hmem h0 (by simp))) hd hn (rvs c cov0 (hours.count h0) n)
    rw [e0]
    simp only
    rw [e1]
    simp only
    obtain ⟨out', g1, g2, g3⟩ := ih (c + 1) (fun i s k => if hours[i]? = some h0 then Phi (f (maskPos hours h0 i) s k) else out i s k) (List.nodup_cons.1 hnd).2
      (fun h hh => hmem h (by simp [hh])) (fun h hh => hpar h (by simp [hh]))
    refine ⟨out', g1, ?_, ?_⟩
    · intro i h hi hh
      rw [List.mem_cons, not_or] at hh
      rw [g2 i h hi hh.2]
      funext s k
      rw [if_neg (by rw [hi]; intro h'; exact hh.1 (Option.some.inj h'))]
    · intro i h cov hi hh hcov s k hs' hk
      by_cases hc : h = h0
      · subst hc
        rw [g2 i h hi (List.nodup_cons.1 hnd).1]
        have hpos : maskPos hours h i < hours.count h := by
          unfold maskPos
          have h1 := List.getElem?_eq_some_iff.1 hi
          obtain ⟨hlt, hv⟩ := h1
          conv_rhs => rw [← List.take_append_drop i hours]
          rw [List.count_append, List.drop_eq_getElem_cons hlt, hv]
          simp
        simp only
        rw [if_pos hi, e2 _ _ _ hpos hs' hk]
        rw [e0] at hcov
        cases hcov
        simp
      · have : h ∈ hs := by
          rcases List.mem_cons.1 hh with h' | h'
          · exact absurd h' hc
          · exact h'
        rw [g3 i h cov hi this hcov s k hs' hk]
        rw [List.idxOf_cons_ne _ (fun h' => hc h'.symm)]
        congr 2
        omega

theorem sampleLoop_keyError {K Cov : Type} (Phi : K → K) (pars : Pars Cov) (rvs : Nat → Cov → Nat → Nat → Nat → Nat → Nat → K) (dim n : Nat)
    (hours : List Nat) : ∀ (hs : List Nat) (c : Nat) (out : Nat → Nat → Nat → K), (∃ h ∈ hs, pars h = none) → ∃ e, sampleLoop Phi pars rvs dim n hours c hs out = .error e := by
  intro hs
  induction hs with
  | nil => intro c out h; obtain ⟨h, hh, _⟩ := h; simp at hh
  | cons h0 hs ih =>
    intro c out h
    unfold sampleLoop
    cases e0 : pars h0 with
    | none => exact ⟨_, rfl⟩
    | some cov0 =>
      simp only
      cases e1 : sampleHour (hours.count h0) n dim (rvs c cov0 (hours.count h0) n) with
      | error e => exact ⟨_, rfl⟩
      | ok f =>
        simp only
        apply ih
        obtain ⟨h, hh, hp⟩ := h
        rcases List.mem_cons.1 hh with h' | h'
        · rw [h', e0] at hp; cases hp
        · exact ⟨h, h', hp⟩

/-! ### The hour of the cross validation -/

theorem insertDesc_mem {x y : Nat × Nat} {l : List (Nat × Nat)} (h : y ∈ insertDesc x l) : y = x ∨ y ∈ l := by
  induction l with
  | nil => simp [insertDesc] at h; exact Or.inl h
  | cons z l ih =>
    unfold insertDesc at h
    split at h
    · simpa using h
    · rcases List.mem_cons.1 h with h | h
      · right; simp [h]
      · rcases ih h with h | h
        · left; exact h
        · right; simp [h]

theorem insertDesc_sorted {x : Nat × Nat} {l : List (Nat × Nat)} (h : l.Pairwise (fun a b => b.2 ≤ a.2)) : (insertDesc x l).Pairwise (fun a b => b.2 ≤ a.2) := by
  induction l with
  | nil => simp [insertDesc]
  | cons z l ih =>
    rw [List.pairwise_cons] at h
    unfold insertDesc
    split
    · rename_i hlt
      rw [List.pairwise_cons, List.pairwise_cons]
      refine ⟨?_, h⟩
      intro b hb
      rcases List.mem_cons.1 hb with hb | hb
      · rw [hb]; omega
      · have := h.1 b hb; omega
    · rename_i hge
      rw [List.pairwise_cons]
      refine ⟨?_, ih h.2⟩
      intro b hb
      rcases insertDesc_mem hb with hb | hb
      · rw [hb]; omega
      · exact h.1 b hb

theorem valueCounts_sorted (hours : List Nat) : (valueCounts hours).Pairwise (fun a b => b.2 ≤ a.2) := by
  unfold valueCounts
  generalize (uniqueHours hours).map (fun h => (h, hours.count h)) = l
  induction l with
  | nil => simp
  | cons x l ih => exact insertDesc_sorted ih

theorem argmaxPos_sorted {l : List Nat} (h : l.Pairwise (fun a b => b ≤ a)) : argmaxPos l = 0 := by
  cases l with
  | nil => rfl
  | cons x l =>
    rw [List.pairwise_cons] at h
    have : (x :: l).foldr max 0 = x := by
      rw [List.foldr_cons]
      have hb : ∀ l : List Nat, (∀ a ∈ l, a ≤ x) → l.foldr max 0 ≤ x := by
        intro l
        induction l with
        | nil => intro _; simp
        | cons y l ih =>
          intro hl
          rw [List.foldr_cons]
          exact max_le (hl y (by simp)) (ih (fun a ha => hl a (by simp [ha])))
      exact max_eq_left (hb l h.1)
    unfold argmaxPos
    rw [this, List.idxOf_cons_self]

/-! ### Interpolation -/

section
variable {K : Type} [Field K] [LinearOrder K] [IsStrictOrderedRing K]

/-- Points with increasing abscissae. -/
abbrev Inc (pts : List (K × K)) : Prop := pts.Pairwise (fun a b => a.1 < b.1)

omit [Field K] [IsStrictOrderedRing K] in
theorem countP_inc {pts : List (K × K)} (i : Nat) (u : K) (h1 : ∀ (j : Nat) (p : K × K), pts[j]? = some p → j < i → p.1 < u)
    (h2 : ∀ (j : Nat) (p : K × K), pts[j]? = some p → i ≤ j → u ≤ p.1) (hi : i ≤ pts.length) : pts.countP (fun p => decide (p.1 < u)) = i := by
  rw [← List.take_append_drop i pts, List.countP_append]
  have e1 : (pts.take i).countP (fun p => decide (p.1 < u)) = i := by
    rw [List.countP_eq_length.2]
    · rw [List.length_take]; omega
    · intro p hp
      obtain ⟨j, hj⟩ := List.mem_iff_getElem?.1 hp
      rw [List.getElem?_take] at hj
      split at hj
      · rename_i hlt
        simpa using h1 j p hj hlt
      · cases hj
  have e2 : (pts.drop i).countP (fun p => decide (p.1 < u)) = 0 := by
    rw [List.countP_eq_zero]
    intro p hp
    obtain ⟨j, hj⟩ := List.mem_iff_getElem?.1 hp
    rw [List.getElem?_drop] at hj
    have := h2 (i + j) p hj (by omega)
    simpa using this
  rw [e1, e2, Nat.add_zero]

omit [Field K] [IsStrictOrderedRing K] in
theorem inc_get {pts : List (K × K)} (h : Inc pts) {i j : Nat} {p q : K × K} (hi : pts[i]? = some p) (hj : pts[j]? = some q) (hij : i < j) : p.1 < q.1 := by
  obtain ⟨h1, rfl⟩ := List.getElem?_eq_some_iff.1 hi
  obtain ⟨h2, rfl⟩ := List.getElem?_eq_some_iff.1 hj
  exact List.pairwise_iff_getElem.1 h i j h1 h2 hij

omit [Field K] [IsStrictOrderedRing K] in
theorem inc_get_le {pts : List (K × K)} (h : Inc pts) {i j : Nat} {p q : K × K} (hi : pts[i]? = some p) (hj : pts[j]? = some q) (hij : i ≤ j) : p.1 ≤ q.1 := by
  rcases Nat.lt_or_eq_of_le hij with h' | h'
  · exact le_of_lt (inc_get h hi hj h')
  · subst h'; rw [hi] at hj; cases hj; exact le_refl _

/-- The value on the line through two points. -/
def line (p q : K × K) (u : K) : K := (q.2 - p.2) / (q.1 - p.1) * (u - p.1) + p.2

/-- Interpolation in a list of points in increasing order. -/
def core (pts : List (K × K)) (u : K) : K :=
  line (pts.getD (min (max (pts.countP (fun p => decide (p.1 < u))) 1) (pts.length - 1) - 1) (0, 0))
    (pts.getD (min (max (pts.countP (fun p => decide (p.1 < u))) 1) (pts.length - 1)) (0, 0)) u

omit [IsStrictOrderedRing K] in
theorem interp_core (xs ys : List K) (u : K) : interp xs ys u = core ((xs.zip ys).insertionSort (fun a b => a.1 ≤ b.1)) u := rfl

/-- The value in the bracket chosen by `searchsorted`. -/
theorem core_bracket {pts : List (K × K)} (h : Inc pts) (i : Nat) (p q : K × K) (hp : pts[i]? = some p) (hq : pts[i + 1]? = some q) (u : K)
    (h1 : i = 0 ∨ p.1 < u) (h2 : i + 2 = pts.length ∨ u ≤ q.1) : core pts u = line p q u := by
  have hl : i + 1 < pts.length := (List.getElem?_eq_some_iff.1 hq).1
  have hc : min (max (pts.countP (fun p => decide (p.1 < u))) 1) (pts.length - 1) = i + 1 := by
    by_cases hu : u ≤ p.1
    · have hi0 : i = 0 := by
        rcases h1 with h1 | h1
        · exact h1
        · exact absurd h1 (not_lt.2 hu)
      subst hi0
      have : pts.countP (fun p => decide (p.1 < u)) = 0 := by
        rw [List.countP_eq_zero]
        intro r hr
        obtain ⟨j, hj⟩ := List.mem_iff_getElem?.1 hr
        have := inc_get_le h hp hj (Nat.zero_le _)
        simp only [decide_eq_true_eq, not_lt]
        linarith
      rw [this]
      omega
    · rw [not_le] at hu
      by_cases hu2 : u ≤ q.1
      · have := countP_inc (i + 1) u (fun j r hr hj => lt_of_le_of_lt (inc_get_le h hr hp (by omega)) hu)
          (fun j r hr hj => le_trans hu2 (inc_get_le h hq hr hj)) (by omega)
        rw [this]
        omega
      · rw [not_le] at hu2
        have hlast : i + 2 = pts.length := by
          rcases h2 with h2 | h2
          · exact h2
          · exact absurd h2 (not_le.2 hu2)
        have := countP_inc (i + 2) u (fun j r hr hj => lt_of_le_of_lt (inc_get_le h hr hq (by omega)) hu2)
          (fun j r hr hj => absurd (List.getElem?_eq_some_iff.1 hr).1 (by omega)) (by omega)
        rw [this]
        omega
  unfold core
  rw [hc]
  simp only [Nat.add_sub_cancel, List.getD_eq_getElem?_getD, hp, hq, Option.getD_some]

omit [Field K] [IsStrictOrderedRing K] in
/-- Every abscissa has a bracket. -/
theorem bracket_exists {pts : List (K × K)} (h2 : 2 ≤ pts.length) (u : K) : ∃ (i : Nat) (p q : K × K), pts[i]? = some p ∧ pts[i + 1]? = some q ∧
    (i = 0 ∨ p.1 < u) ∧ (i + 2 = pts.length ∨ u ≤ q.1) := by
  -- the first point, from position 1 on, not below u, or the last one
  by_cases hex : ∃ (j : Nat), 1 ≤ j ∧ ∃ q : K × K, pts[j]? = some q ∧ u ≤ q.1
  · classical
    obtain ⟨h1, q, hq, hu⟩ := Nat.find_spec hex
    have hmin := fun m => Nat.find_min (H := hex) (m := m)
    generalize Nat.find hex = j at *
    have hl := (List.getElem?_eq_some_iff.1 hq).1
    refine ⟨j - 1, pts[j - 1]'(by omega), q, List.getElem?_eq_getElem _, by rw [Nat.sub_add_cancel h1]; exact hq, ?_, Or.inr hu⟩
    by_cases h0 : j = 1
    · left; omega
    · right
      by_contra hc
      exact hmin (j - 1) (by omega) ⟨by omega, _, List.getElem?_eq_getElem _, not_lt.1 hc⟩
  · refine ⟨pts.length - 2, pts[pts.length - 2]'(by omega), pts[pts.length - 2 + 1]'(by omega), List.getElem?_eq_getElem _, List.getElem?_eq_getElem _, ?_, Or.inl (by omega)⟩
    by_cases h0 : pts.length = 2
    · left; omega
    · right
      by_contra hc
      exact hex ⟨pts.length - 2, by omega, _, List.getElem?_eq_getElem _, not_lt.1 hc⟩

/-- The value in every closed segment. -/
theorem core_segment {pts : List (K × K)} (h : Inc pts) (i : Nat) (p q : K × K) (hp : pts[i]? = some p) (hq : pts[i + 1]? = some q) (u : K)
    (h1 : p.1 ≤ u) (h2 : u ≤ q.1) : core pts u = line p q u := by
  rcases lt_or_eq_of_le h1 with h1 | h1
  · exact core_bracket h i p q hp hq u (Or.inr h1) (Or.inr h2)
  · by_cases hi : i = 0
    · exact core_bracket h i p q hp hq u (Or.inl hi) (Or.inr h2)
    · have hl := (List.getElem?_eq_some_iff.1 hp).1
      have hr : pts[i - 1]? = some (pts[i - 1]'(by omega)) := List.getElem?_eq_getElem _
      have hlt := inc_get h hr hp (by omega)
      have e := core_bracket h (i - 1) _ p hr (by rw [Nat.sub_add_cancel (by omega)]; exact hp) u (Or.inr (by rw [← h1]; exact hlt)) (Or.inr (le_of_eq h1.symm))
      rw [e, ← h1]
      unfold line
      have : p.1 - (pts[i - 1]'(by omega)).1 ≠ 0 := by intro h0; rw [sub_eq_zero] at h0; rw [h0] at hlt; exact lt_irrefl _ hlt
      rw [div_mul_cancel₀ _ this]
      ring

theorem line_mono {p q : K × K} (h1 : p.1 < q.1) (h2 : p.2 ≤ q.2) {u v : K} (huv : u ≤ v) : line p q u ≤ line p q v := by
  unfold line
  have : 0 ≤ (q.2 - p.2) / (q.1 - p.1) := div_nonneg (by linarith) (by linarith)
  nlinarith

omit [LinearOrder K] [IsStrictOrderedRing K] in
theorem line_left (p q : K × K) : line p q p.1 = p.2 := by unfold line; ring

omit [IsStrictOrderedRing K] in
theorem line_right {p q : K × K} (h1 : p.1 < q.1) : line p q q.1 = q.2 := by
  unfold line
  have : q.1 - p.1 ≠ 0 := by intro h0; rw [sub_eq_zero] at h0; rw [h0] at h1; exact lt_irrefl _ h1
  rw [div_mul_cancel₀ _ this]
  ring

theorem core_node {pts : List (K × K)} (h : Inc pts) (h2 : 2 ≤ pts.length) (i : Nat) (p : K × K) (hp : pts[i]? = some p) : core pts p.1 = p.2 := by
  have hl := (List.getElem?_eq_some_iff.1 hp).1
  by_cases hi : i + 1 < pts.length
  · have hq : pts[i + 1]? = some (pts[i + 1]'hi) := List.getElem?_eq_getElem _
    rw [core_segment h i p _ hp hq p.1 (le_refl _) (le_of_lt (inc_get h hp hq (by omega))), line_left]
  · have hr : pts[i - 1]? = some (pts[i - 1]'(by omega)) := List.getElem?_eq_getElem _
    have hp' : pts[i - 1 + 1]? = some p := by rw [Nat.sub_add_cancel (by omega)]; exact hp
    have hlt := inc_get h hr hp (by omega)
    rw [core_segment h (i - 1) _ p hr hp' p.1 (le_of_lt hlt) (le_refl _), line_right hlt]

theorem core_mono {pts : List (K × K)} (h : Inc pts) (h2 : 2 ≤ pts.length) (hm : pts.Pairwise (fun a b => a.2 ≤ b.2)) {u v : K} (huv : u ≤ v) : core pts u ≤ core pts v := by
  have getle : ∀ {i j : Nat} {p q : K × K}, pts[i]? = some p → pts[j]? = some q → i ≤ j → p.2 ≤ q.2 := by
    intro i j p q hi hj hij
    rcases Nat.lt_or_eq_of_le hij with h' | h'
    · obtain ⟨h1, rfl⟩ := List.getElem?_eq_some_iff.1 hi
      obtain ⟨h2, rfl⟩ := List.getElem?_eq_some_iff.1 hj
      exact List.pairwise_iff_getElem.1 hm i j h1 h2 h'
    · subst h'; rw [hi] at hj; cases hj; exact le_refl _
  obtain ⟨i, p, q, hp, hq, a1, a2⟩ := bracket_exists h2 u
  obtain ⟨j, r, s, hr, hs, b1, b2⟩ := bracket_exists h2 v
  rw [core_bracket h i p q hp hq u a1 a2, core_bracket h j r s hr hs v b1 b2]
  have hpq := inc_get h hp hq (by omega)
  have hrs := inc_get h hr hs (by omega)
  rcases lt_trichotomy i j with hij | hij | hij
  · -- u's bracket is left of v's
    have hu : u ≤ q.1 := by
      rcases a2 with a2 | a2
      · have := (List.getElem?_eq_some_iff.1 hs).1; omega
      · exact a2
    have hv : r.1 < v := by
      rcases b1 with b1 | b1
      · omega
      · exact b1
    calc line p q u ≤ line p q q.1 := line_mono hpq (getle hp hq (by omega)) hu
      _ = q.2 := line_right hpq
      _ ≤ r.2 := getle hq hr (by omega)
      _ = line r s r.1 := (line_left r s).symm
      _ ≤ line r s v := line_mono hrs (getle hr hs (by omega)) (le_of_lt hv)
  · subst hij
    rw [hp] at hr; rw [hq] at hs
    cases hr; cases hs
    exact line_mono hpq (getle hp hq (by omega)) huv
  · exfalso
    -- v ≤ s.1 ≤ p.1 < u
    have hv : v ≤ s.1 := by
      rcases b2 with b2 | b2
      · have := (List.getElem?_eq_some_iff.1 hq).1; omega
      · exact b2
    have hu : p.1 < u := by
      rcases a1 with a1 | a1
      · omega
      · exact a1
    have := inc_get_le h hs hp (by omega)
    linarith

omit [Field K] [IsStrictOrderedRing K] in
theorem sort_inc {pts : List (K × K)} (h : Inc pts) : pts.insertionSort (fun a b => a.1 ≤ b.1) = pts :=
  List.Pairwise.insertionSort_eq (h.imp (fun hab => le_of_lt hab))

omit [Field K] [IsStrictOrderedRing K] in
theorem inc_zip {xs ys : List K} (h : xs.Pairwise (· < ·)) : Inc (xs.zip ys) := by
  induction xs generalizing ys with
  | nil => simp
  | cons x xs ih =>
    cases ys with
    | nil => simp
    | cons y ys =>
      rw [List.pairwise_cons] at h
      rw [List.zip_cons_cons]
      refine List.pairwise_cons.2 ⟨?_, ih h.2⟩
      intro b hb
      exact h.1 _ (List.of_mem_zip hb).1

omit [Field K] [IsStrictOrderedRing K] in
theorem mono_zip {xs ys : List K} (h : ys.Pairwise (· ≤ ·)) : (xs.zip ys).Pairwise (fun a b => a.2 ≤ b.2) := by
  induction xs generalizing ys with
  | nil => simp
  | cons x xs ih =>
    cases ys with
    | nil => simp
    | cons y ys =>
      rw [List.pairwise_cons] at h
      rw [List.zip_cons_cons]
      refine List.pairwise_cons.2 ⟨?_, ih h.2⟩
      intro b hb
      exact h.1 _ (List.of_mem_zip hb).2

omit [Field K] [LinearOrder K] [IsStrictOrderedRing K] in
theorem zip_get {xs ys : List K} {i : Nat} {x y : K} (hx : xs[i]? = some x) (hy : ys[i]? = some y) : (xs.zip ys)[i]? = some (x, y) := by
  rw [List.getElem?_zip_eq_some]
  exact ⟨hx, hy⟩

end

end PyF.ScenGen
