import Verif.Metrics.Model
import Verif.Quantile.Lemmas
import Mathlib.Algebra.Order.BigOperators.Group.List
import Mathlib.Algebra.BigOperators.Ring.List
import Mathlib.Tactic.Linarith
import Mathlib.Tactic.Positivity
import Mathlib.Tactic.FieldSimp
import Mathlib.Tactic.Ring

namespace PyF.Metrics
open PyF

variable {L : Type} [DecidableEq L]

theorem mem_members {agg : List L} {l : L} {i : Nat} : i ∈ members agg l ↔ agg[i]? = some l := by
  unfold members
  rw [List.mem_filter, List.mem_range]
  constructor
  · rintro ⟨_, h⟩; simpa using h
  · intro h
    exact ⟨(List.getElem?_eq_some_iff.1 h).1, by simpa using h⟩

theorem members_ne_nil {agg : List L} {l : L} (h : l ∈ agg) : members agg l ≠ [] := by
  obtain ⟨i, hi⟩ := List.mem_iff_getElem?.1 h
  exact List.ne_nil_of_mem (mem_members.2 hi)

theorem avg_nonneg {l : List ℚ} (h : ∀ x ∈ l, 0 ≤ x) : 0 ≤ avg l := by
  unfold avg
  exact div_nonneg (List.sum_nonneg h) (by positivity)

theorem sum_eq_zero_iff {l : List ℚ} (h : ∀ x ∈ l, 0 ≤ x) : l.sum = 0 ↔ ∀ x ∈ l, x = 0 := by
  induction l with
  | nil => simp
  | cons a l ih =>
    have ha := h a List.mem_cons_self
    have hl : ∀ x ∈ l, 0 ≤ x := fun x hx => h x (List.mem_cons_of_mem _ hx)
    have hs := List.sum_nonneg hl
    rw [List.sum_cons]
    constructor
    · intro hz x hx
      have h1 : a = 0 := by linarith
      have h2 : l.sum = 0 := by linarith
      rcases List.mem_cons.1 hx with rfl | hx
      · exact h1
      · exact (ih hl).1 h2 x hx
    · intro hz
      rw [hz a List.mem_cons_self, (ih hl).2 (fun x hx => hz x (List.mem_cons_of_mem _ hx)), add_zero]

theorem avg_eq_zero_iff {l : List ℚ} (hne : l ≠ []) (h : ∀ x ∈ l, 0 ≤ x) : avg l = 0 ↔ ∀ x ∈ l, x = 0 := by
  unfold avg
  have : (l.length : ℚ) ≠ 0 := by exact_mod_cast (List.length_pos_iff.2 hne).ne'
  rw [div_eq_zero_iff, or_iff_left this]
  exact sum_eq_zero_iff h

theorem sum_map_le {α : Type} {l : List α} {f g : α → ℚ} (h : ∀ x ∈ l, f x ≤ g x) : (l.map f).sum ≤ (l.map g).sum :=
  List.sum_le_sum h

theorem avg_map_le {α : Type} {l : List α} {f g : α → ℚ} (h : ∀ x ∈ l, f x ≤ g x) : avg (l.map f) ≤ avg (l.map g) := by
  unfold avg
  rw [List.length_map, List.length_map]
  exact div_le_div_of_nonneg_right (sum_map_le h) (by positivity)

theorem avg_le_one {l : List ℚ} (h : ∀ x ∈ l, x ≤ 1) : avg l ≤ 1 := by
  unfold avg
  by_cases hl : l = []
  · subst hl; simp
  · have hpos : (0 : ℚ) < l.length := by exact_mod_cast List.length_pos_iff.2 hl
    rw [div_le_one hpos]
    have := List.sum_le_card_nsmul l 1 h
    simpa using this

/-- The cell aggregated under position `k` of the index into column `c`. -/
def pick (n : Nat) (agg : List L) (f : Table) (k c : Nat) : ℚ := if n = agg.length then f k c else f c k

theorem aggregate_spec (n m : Nat) (agg : List L) (res : Table) :
    ((n = agg.length ∨ m = agg.length) → ∃ g, aggregate n m agg res = .ok g ∧ (n = agg.length → ∃ f, g = .overRows f) ∧ (n ≠ agg.length → ∃ f, g = .overCols f) ∧
      ∀ l c, g.at l c = avg ((members agg l).map (fun k => pick n agg res k c))) ∧
      (¬ (n = agg.length ∨ m = agg.length) → aggregate n m agg res = .error .valueError) := by
  unfold aggregate choseAxis pick
  by_cases h : n = agg.length
  · refine ⟨fun _ => ⟨_, by rw [if_pos h, if_pos rfl], fun _ => ⟨_, rfl⟩, fun hn => absurd h hn, ?_⟩, fun hn => absurd (Or.inl h) hn⟩
    intro l c
    simp only [Grouped.at, h, if_true]
  · by_cases h2 : m = agg.length
    · refine ⟨fun _ => ⟨_, by rw [if_neg h, if_neg (by omega), if_pos h2.symm], fun hn => absurd hn h, fun _ => ⟨_, rfl⟩, ?_⟩, fun hn => absurd (Or.inr h2) hn⟩
      intro l c
      simp only [Grouped.at, h, if_false]
    · refine ⟨fun hn => absurd hn (by tauto), fun _ => ?_⟩
      rw [if_neg h, if_neg (by omega), if_neg (fun hh => h2 hh.symm)]

theorem aggregate_congr (n m : Nat) (agg : List L) {a b : Table} (h : ∀ i j, a i j = b i j) : aggregate n m agg a = aggregate n m agg b := by
  have : a = b := by funext i j; exact h i j
  rw [this]

theorem rowScale_nonneg (m : Nat) (t : Table) (i : Nat) : 0 ≤ rowScale m t i := by
  unfold rowScale
  apply avg_nonneg
  intro x hx
  obtain ⟨j, _, rfl⟩ := List.mem_map.1 hx
  exact abs_nonneg _

theorem offset_pos (n m : Nat) (hn : 1 ≤ n) (inter : Bool) (t : Table) : 0 < offset n m inter t := by
  unfold offset
  split
  · have hne : (List.range n).map (fun (i : Nat) => rowScale m t i) ≠ [] := by
      intro h
      have := congrArg List.length h
      simp at this
      omega
    have hE := Quantile.within_of_isEmpirical hne (by norm_num) (by norm_num) (Quantile.quantileVal_isEmpirical hne (q := 1 / 2) (by norm_num) (by norm_num))
    obtain ⟨⟨e, he, hle⟩, _⟩ := hE
    obtain ⟨i, _, rfl⟩ := List.mem_map.1 he
    have := rowScale_nonneg m t i
    have h3 := le_trans this hle
    linarith
  · norm_num

/-! ### The loop over the levels -/

theorem quantileScores_spec (n m : Nat) (agg : List L) (hagg : n = agg.length ∨ m = agg.length) (q : QHat) (t : Table) (e : Nat → Table) :
    ∀ (alphas : List ℚ) (a : Nat), (∀ k, a ≤ k → k < a + alphas.length → errAlpha q m t k = .ok (e k)) →
    ∃ out, quantileScores n m agg q t a alphas = .ok out ∧ out.length = alphas.length ∧
      ∀ (k : Nat) (al : ℚ), alphas[k]? = some al → ∃ s r, out[k]? = some (al, s, r) ∧
        (∀ l c, s.at l c = avg ((members agg l).map (fun i => pick n agg (fun i j => pinball al (e (a + k) i j)) i c))) ∧
        (∀ l c, r.at l c = avg ((members agg l).map (fun i => pick n agg (fun i j => above (e (a + k) i j)) i c))) := by
  intro alphas
  induction alphas with
  | nil => intro a _; exact ⟨[], rfl, rfl, fun k al h => by simp at h⟩
  | cons al rest ih =>
    intro a he
    obtain ⟨out, h1, h2, h3⟩ := ih (a + 1) (fun k hk hk' => he k (by omega) (by rw [List.length_cons]; omega))
    obtain ⟨s, hs, _, _, hs'⟩ := (aggregate_spec n m agg (fun i j => pinball al (e a i j))).1 hagg
    obtain ⟨r, hr, _, _, hr'⟩ := (aggregate_spec n m agg (fun i j => above (e a i j))).1 hagg
    refine ⟨(al, s, r) :: out, ?_, by simp [h2], ?_⟩
    · simp only [quantileScores]
      rw [he a (le_refl _) (by rw [List.length_cons]; omega)]
      simp only
      rw [hs, hr]
      simp only
      rw [h1]
    · intro k al' hk
      cases k with
      | zero =>
        simp only [List.getElem?_cons_zero, Option.some.injEq] at hk
        subst hk
        exact ⟨s, r, rfl, hs', hr'⟩
      | succ k =>
        rw [List.getElem?_cons_succ] at hk
        obtain ⟨s', r', e1, e2, e3⟩ := h3 k al' hk
        refine ⟨s', r', by rw [List.getElem?_cons_succ]; exact e1, ?_, ?_⟩
        · intro l c; rw [e2, show a + 1 + k = a + (k + 1) by omega]
        · intro l c; rw [e3, show a + 1 + k = a + (k + 1) by omega]

/-! ### Pinball -/

theorem pinball_nonneg {al e : ℚ} (h0 : 0 ≤ al) (h1 : al ≤ 1) : 0 ≤ pinball al e := by
  unfold pinball above
  split
  · rename_i h; exact mul_nonneg (by linarith) (le_of_lt h)
  · rename_i h; have := not_lt.1 h; nlinarith

theorem pinball_eq_zero {al e : ℚ} (h0 : 0 < al) (h1 : al < 1) : pinball al e = 0 ↔ e = 0 := by
  unfold pinball above
  rw [mul_eq_zero]
  constructor
  · rintro (h | h)
    · split at h <;> linarith
    · exact h
  · exact Or.inr

theorem pinball_half (e : ℚ) : 2 * pinball (1 / 2) e = |e| := by
  unfold pinball above
  split
  · rename_i h; rw [abs_of_pos h]; ring
  · rename_i h; rw [abs_of_nonpos (not_lt.1 h)]; ring

/-- Number of observations satisfying a test, as a rational. -/
def cnt (p : ℚ → Bool) (ys : List ℚ) : ℚ := (ys.countP p : ℚ)

theorem cnt_eq_sum (p : ℚ → Bool) (ys : List ℚ) : cnt p ys = (ys.map (fun y => if p y then (1 : ℚ) else 0)).sum := by
  unfold cnt
  induction ys with
  | nil => simp
  | cons y ys ih =>
    rw [List.countP_cons, List.map_cons, List.sum_cons, ← ih]
    split <;> push_cast <;> ring

/-- Total score of the constant candidate `v`. -/
def total (al : ℚ) (ys : List ℚ) (v : ℚ) : ℚ := (ys.map (fun y => pinball al (v - y))).sum

theorem total_lower (al : ℚ) (ys : List ℚ) (v w : ℚ) (p : ℚ → Bool) (h : ∀ y, ((if p y then (1 : ℚ) else 0) - al) * (w - v) ≤ pinball al (w - y) - pinball al (v - y)) :
    (cnt p ys - al * ys.length) * (w - v) ≤ total al ys w - total al ys v := by
  rw [cnt_eq_sum]
  unfold total
  induction ys with
  | nil => simp
  | cons y ys ih =>
    simp only [List.map_cons, List.sum_cons, List.length_cons, Nat.cast_succ]
    have := h y
    nlinarith

theorem total_upper (al : ℚ) (ys : List ℚ) (v w : ℚ) (p : ℚ → Bool) (h : ∀ y ∈ ys, pinball al (w - y) - pinball al (v - y) = ((if p y then (1 : ℚ) else 0) - al) * (w - v)) :
    total al ys w - total al ys v = (cnt p ys - al * ys.length) * (w - v) := by
  rw [cnt_eq_sum]
  unfold total
  induction ys with
  | nil => simp
  | cons y ys ih =>
    simp only [List.map_cons, List.sum_cons, List.length_cons, Nat.cast_succ]
    have h1 := h y List.mem_cons_self
    have h2 := ih (fun y hy => h y (List.mem_cons_of_mem _ hy))
    linarith

theorem gap_right (ys : List ℚ) (v : ℚ) : ∃ w, v < w ∧ ∀ y ∈ ys, y ≤ v ∨ w ≤ y := by
  induction ys with
  | nil => exact ⟨v + 1, by linarith, fun y hy => by cases hy⟩
  | cons y ys ih =>
    obtain ⟨w, h1, h2⟩ := ih
    by_cases h : y ≤ v
    · exact ⟨w, h1, fun z hz => by rcases List.mem_cons.1 hz with rfl | hz; exact Or.inl h; exact h2 z hz⟩
    · refine ⟨min w y, lt_min h1 (not_le.1 h), fun z hz => ?_⟩
      rcases List.mem_cons.1 hz with rfl | hz
      · exact Or.inr (min_le_right _ _)
      · rcases h2 z hz with h3 | h3
        · exact Or.inl h3
        · exact Or.inr (le_trans (min_le_left _ _) h3)

theorem gap_left (ys : List ℚ) (v : ℚ) : ∃ w, w < v ∧ ∀ y ∈ ys, y ≤ w ∨ v ≤ y := by
  induction ys with
  | nil => exact ⟨v - 1, by linarith, fun y hy => by cases hy⟩
  | cons y ys ih =>
    obtain ⟨w, h1, h2⟩ := ih
    by_cases h : v ≤ y
    · exact ⟨w, h1, fun z hz => by rcases List.mem_cons.1 hz with rfl | hz; exact Or.inr h; exact h2 z hz⟩
    · refine ⟨max w y, max_lt h1 (not_le.1 h), fun z hz => ?_⟩
      rcases List.mem_cons.1 hz with rfl | hz
      · exact Or.inl (le_max_right _ _)
      · rcases h2 z hz with h3 | h3
        · exact Or.inl (le_trans h3 (le_max_left _ _))
        · exact Or.inr h3

theorem total_min_iff (al : ℚ) (ys : List ℚ) (v : ℚ) :
    (∀ w, total al ys v ≤ total al ys w) ↔
      cnt (fun y => decide (y < v)) ys ≤ al * ys.length ∧ al * ys.length ≤ cnt (fun y => decide (y ≤ v)) ys := by
  constructor
  · intro h
    constructor
    · by_contra hc
      obtain ⟨w, hw, hg⟩ := gap_left ys v
      have he := total_upper al ys v w (fun y => decide (y < v)) (by
        intro y hy
        unfold pinball above
        rcases hg y hy with h1 | h1
        · rw [if_pos (by linarith : v - y > 0), if_pos (decide_eq_true (lt_of_le_of_lt h1 hw))]
          by_cases h2 : w - y > 0
          · rw [if_pos h2]; ring
          · have : w - y = 0 := by linarith
            rw [if_neg h2, this]
            have : y = w := by linarith
            subst this; ring
        · rw [if_neg (by linarith : ¬ w - y > 0), if_neg (by linarith : ¬ v - y > 0), if_neg (by simpa using h1 : ¬ decide (y < v) = true)]
          ring)
      have := h w
      have h3 : (cnt (fun y => decide (y < v)) ys - al * ys.length) * (w - v) < 0 := mul_neg_of_pos_of_neg (by linarith) (by linarith)
      linarith
    · by_contra hc
      obtain ⟨w, hw, hg⟩ := gap_right ys v
      have he := total_upper al ys v w (fun y => decide (y ≤ v)) (by
        intro y hy
        unfold pinball above
        rcases hg y hy with h1 | h1
        · rw [if_pos (by linarith : w - y > 0), if_pos (decide_eq_true h1)]
          by_cases h2 : v - y > 0
          · rw [if_pos h2]; ring
          · have : y = v := by linarith
            rw [if_neg h2, this]; ring
        · rw [if_neg (by linarith : ¬ w - y > 0), if_neg (by linarith : ¬ v - y > 0), if_neg (by simpa using lt_of_lt_of_le hw h1 : ¬ decide (y ≤ v) = true)]
          ring)
      have := h w
      have h3 : (cnt (fun y => decide (y ≤ v)) ys - al * ys.length) * (w - v) < 0 := mul_neg_of_neg_of_pos (by linarith) (by linarith)
      linarith
  · rintro ⟨h1, h2⟩ w
    rcases le_or_gt v w with hvw | hvw
    · have := total_lower al ys v w (fun y => decide (y ≤ v)) (by
        intro y
        unfold pinball above
        by_cases h : y ≤ v
        · rw [if_pos (decide_eq_true h)]
          split <;> split <;> nlinarith
        · rw [if_neg (by simpa using h : ¬ decide (y ≤ v) = true), if_neg (by linarith [not_le.1 h] : ¬ v - y > 0)]
          split <;> nlinarith [not_le.1 h])
      have h3 : 0 ≤ (cnt (fun y => decide (y ≤ v)) ys - al * ys.length) * (w - v) := mul_nonneg (by linarith) (by linarith)
      linarith
    · have := total_lower al ys v w (fun y => decide (y < v)) (by
        intro y
        unfold pinball above
        by_cases h : y < v
        · rw [if_pos (decide_eq_true h), if_pos (by linarith : v - y > 0)]
          split <;> nlinarith
        · rw [if_neg (by simpa using h : ¬ decide (y < v) = true), if_neg (by linarith [not_lt.1 h] : ¬ v - y > 0)]
          split <;> nlinarith [not_lt.1 h])
      have h3 : 0 ≤ (cnt (fun y => decide (y < v)) ys - al * ys.length) * (w - v) := mul_nonneg_of_nonpos_of_nonpos (by linarith) (by linarith)
      linarith

end PyF.Metrics
