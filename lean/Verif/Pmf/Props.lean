import Verif.Pmf.Model
import Mathlib.Tactic.Linarith
import Mathlib.Tactic.Ring
import Mathlib.Tactic.FieldSimp
import Mathlib.Algebra.Order.Field.Basic
import Mathlib.Algebra.BigOperators.Group.List.Basic
import Mathlib.Data.List.GetD

/-!
Property C11: the predicted probability mass function.
-/

namespace PyF.Pmf
open PyF

/-! ### Specification: bins as sets -/

/-- Bin number `i` of the edges: half open, the last one closed. -/
def inBin (edges : List ℚ) (i : Nat) (v : ℚ) : Prop :=
  ∃ lo hi, edges[i]? = some lo ∧ edges[i + 1]? = some hi ∧ lo ≤ v ∧
    (if i + 2 = edges.length then v ≤ hi else v < hi)

instance (edges : List ℚ) (i : Nat) (v : ℚ) : Decidable (inBin edges i v) := by
  unfold inBin
  cases h1 : edges[i]? with
  | none => exact isFalse (by rintro ⟨lo, hi, h, _⟩; cases h)
  | some lo =>
    cases h2 : edges[i + 1]? with
    | none => exact isFalse (by rintro ⟨lo, hi, _, h, _⟩; cases h)
    | some hi =>
      exact decidable_of_iff (lo ≤ v ∧ (if i + 2 = edges.length then v ≤ hi else v < hi))
        ⟨fun h => ⟨lo, hi, rfl, rfl, h⟩, by
          rintro ⟨lo', hi', h1, h2, h⟩
          cases h1; cases h2; exact h⟩

/-- Inside the closed range of the bins. -/
def inRange (edges : List ℚ) (v : ℚ) : Prop :=
  ∃ lo hi, edges.head? = some lo ∧ edges.getLast? = some hi ∧ lo ≤ v ∧ v ≤ hi

instance (edges : List ℚ) (v : ℚ) : Decidable (inRange edges v) := by
  unfold inRange
  cases h1 : edges.head? with
  | none => exact isFalse (by rintro ⟨lo, hi, h, _⟩; cases h)
  | some lo =>
    cases h2 : edges.getLast? with
    | none => exact isFalse (by rintro ⟨lo, hi, _, h, _⟩; cases h)
    | some hi =>
      exact decidable_of_iff (lo ≤ v ∧ v ≤ hi)
        ⟨fun h => ⟨lo, hi, rfl, rfl, h⟩, by
          rintro ⟨lo', hi', h1, h2, h⟩
          cases h1; cases h2; exact h⟩

/-! ### Helper lemmas -/

theorem edgesOk_iff (l : List ℚ) : edgesOk l = true ↔ l.Pairwise (· ≤ ·) := by
  rw [← List.isChain_iff_pairwise]
  induction l with
  | nil => simp [edgesOk]
  | cons a l ih =>
    cases l with
    | nil => simp [edgesOk]
    | cons b l => rw [edgesOk, Bool.and_eq_true, ih, List.isChain_cons_cons]; simp

theorem cntLt_sub (a : List ℚ) {lo hi : ℚ} (h : lo ≤ hi) :
    cntLt a hi - cntLt a lo = (a.countP (fun v => decide (lo ≤ v ∧ v < hi)) : Nat) := by
  unfold cntLt
  induction a with
  | nil => simp
  | cons v a ih =>
    simp only [List.countP_cons, decide_eq_true_eq]
    by_cases h1 : v < lo
    · have h2 : v < hi := lt_of_lt_of_le h1 h
      have h3 : ¬ (lo ≤ v ∧ v < hi) := fun h' => absurd h'.1 (not_le.2 h1)
      rw [if_pos h1, if_pos h2, if_neg h3]; push_cast; linarith
    · by_cases h2 : v < hi
      · have h3 : lo ≤ v ∧ v < hi := ⟨not_lt.1 h1, h2⟩
        rw [if_neg h1, if_pos h2, if_pos h3]; push_cast; linarith
      · have h3 : ¬ (lo ≤ v ∧ v < hi) := fun h' => h2 h'.2
        rw [if_neg h1, if_neg h2, if_neg h3]; push_cast; linarith

theorem cntLe_sub (a : List ℚ) {lo hi : ℚ} (h : lo ≤ hi) :
    cntLe a hi - cntLt a lo = (a.countP (fun v => decide (lo ≤ v ∧ v ≤ hi)) : Nat) := by
  unfold cntLt cntLe
  induction a with
  | nil => simp
  | cons v a ih =>
    simp only [List.countP_cons, decide_eq_true_eq]
    by_cases h1 : v < lo
    · have h2 : v ≤ hi := le_of_lt (lt_of_lt_of_le h1 h)
      have h3 : ¬ (lo ≤ v ∧ v ≤ hi) := fun h' => absurd h'.1 (not_le.2 h1)
      rw [if_pos h1, if_pos h2, if_neg h3]; push_cast; linarith
    · by_cases h2 : v ≤ hi
      · have h3 : lo ≤ v ∧ v ≤ hi := ⟨not_lt.1 h1, h2⟩
        rw [if_neg h1, if_pos h2, if_pos h3]; push_cast; linarith
      · have h3 : ¬ (lo ≤ v ∧ v ≤ hi) := fun h' => h2 h'.2
        rw [if_neg h1, if_neg h2, if_neg h3]; push_cast; linarith

theorem inBin_succ (e : ℚ) (es : List ℚ) (i : Nat) (v : ℚ) :
    inBin (e :: es) (i + 1) v ↔ inBin es i v := by
  unfold inBin
  simp only [List.getElem?_cons_succ, List.length_cons, Nat.add_right_cancel_iff,
    show i + 1 + 2 = i + 2 + 1 by omega]

theorem diff_cum_getElem (a : List ℚ) (edges : List ℚ) (hs : edges.Pairwise (· ≤ ·)) :
    (diff (cum a edges)).length = edges.length - 1 ∧
    ∀ i, i + 1 < edges.length →
      (diff (cum a edges))[i]? = some ((a.countP (fun v => decide (inBin edges i v)) : Nat) : Int) := by
  induction edges with
  | nil => simp [cum, diff]
  | cons e es ih =>
    cases es with
    | nil => simp [cum, diff]
    | cons f fs =>
      have hs' : (f :: fs).Pairwise (· ≤ ·) := (List.pairwise_cons.1 hs).2
      have hef : e ≤ f := (List.pairwise_cons.1 hs).1 f List.mem_cons_self
      obtain ⟨ih1, ih2⟩ := ih hs'
      cases fs with
      | nil =>
        refine ⟨by simp [cum, diff], ?_⟩
        intro i hi
        have : i = 0 := by simp at hi; omega
        subst this
        simp only [cum, diff, List.getElem?_cons_zero, cntLe_sub a hef]
        congr 2
        apply List.countP_congr
        intro v _
        simp [inBin]
      | cons g gs =>
        have hc : cum a (e :: f :: g :: gs) = cntLt a e :: cntLt a f :: cum a (g :: gs) := rfl
        have hc' : cum a (f :: g :: gs) = cntLt a f :: cum a (g :: gs) := rfl
        rw [hc, diff, ← hc']
        refine ⟨by simp [ih1], ?_⟩
        intro i hi
        cases i with
        | zero =>
          rw [List.getElem?_cons_zero, cntLt_sub a hef]
          congr 2
          apply List.countP_congr
          intro v _
          simp [inBin]
        | succ i =>
          rw [List.getElem?_cons_succ, ih2 i (by simpa using hi)]
          congr 2
          apply List.countP_congr
          intro v _
          simp only [decide_eq_true_eq]
          exact (inBin_succ _ _ _ _).symm

theorem sum_diff_cum (a : List ℚ) (edges : List ℚ) (hs : edges.Pairwise (· ≤ ·)) (h2 : 2 ≤ edges.length) :
    (diff (cum a edges)).sum = (a.countP (fun v => decide (inRange edges v)) : Nat) := by
  have htele : ∀ (es : List ℚ) (e : ℚ), es ≠ [] → ∀ hl : es ≠ [],
      (diff (cum a (e :: es))).sum = cntLe a (es.getLast hl) - cntLt a e := by
    intro es
    induction es with
    | nil => intro e h; exact absurd rfl h
    | cons f fs ih =>
      intro e _ _
      cases fs with
      | nil => simp [cum, diff]
      | cons g gs =>
        have hc : cum a (e :: f :: g :: gs) = cntLt a e :: cntLt a f :: cum a (g :: gs) := rfl
        have hc' : cum a (f :: g :: gs) = cntLt a f :: cum a (g :: gs) := rfl
        rw [hc, diff, ← hc', List.sum_cons, ih f (by simp) (by simp)]
        rw [List.getLast_cons (a := f) (l := g :: gs) (by simp)]
        ring
  cases edges with
  | nil => simp at h2
  | cons e es =>
    have hne : es ≠ [] := by rintro rfl; simp at h2
    have hle : e ≤ es.getLast hne := (List.pairwise_cons.1 hs).1 _ (List.getLast_mem hne)
    rw [htele es e hne hne, cntLe_sub a hle]
    congr 1
    apply List.countP_congr
    intro v _
    have hlast : (e :: es).getLast? = some (es.getLast hne) := by
      rw [List.getLast?_eq_getLast_of_ne_nil (by simp), List.getLast_cons hne]
    rw [decide_eq_true_eq, decide_eq_true_eq]
    constructor
    · rintro ⟨h1, h2⟩; exact ⟨e, _, rfl, hlast, h1, h2⟩
    · rintro ⟨lo, hi, h1, h2, h3, h4⟩
      rw [hlast] at h2
      cases h1; cases h2; exact ⟨h3, h4⟩

/-! ### Properties -/

/-- **C11.** For non-decreasing edges (at least two) the pmf exists, has one entry per bin, entry `i` is
the fraction of the levels whose quantile falls in bin `i`; entries are non-negative; their sum is the
fraction of quantiles inside the closed range; hence at most 1, and 1 exactly when all are inside. -/
theorem C11_pmf (quantiles edges : List ℚ) (hq : quantiles ≠ []) (hs : edges.Pairwise (· ≤ ·))
    (h2 : 2 ≤ edges.length) :
    ∃ p, pmf quantiles.length quantiles edges = .ok p ∧ p.length = edges.length - 1 ∧
      (∀ i, i + 1 < edges.length → p[i]? = some
        ((quantiles.countP (fun v => decide (inBin edges i v)) : ℚ) / quantiles.length)) ∧
      (∀ e ∈ p, 0 ≤ e) ∧
      p.sum = (quantiles.countP (fun v => decide (inRange edges v)) : ℚ) / quantiles.length ∧
      p.sum ≤ 1 ∧ (p.sum = 1 ↔ ∀ v ∈ quantiles, inRange edges v) := by
  obtain ⟨hlen, hget⟩ := diff_cum_getElem quantiles edges hs
  have hpos : (0 : ℚ) < quantiles.length := by exact_mod_cast List.length_pos_iff.2 hq
  have hsum : ((diff (cum quantiles edges)).map (fun z : Int => (z : ℚ) / (quantiles.length : ℚ))).sum
      = (quantiles.countP (fun v => decide (inRange edges v)) : ℚ) / quantiles.length := by
    have h := sum_diff_cum quantiles edges hs h2
    have hl : ∀ l : List Int, (l.map (fun z : Int => (z : ℚ) / (quantiles.length : ℚ))).sum
        = (l.sum : ℚ) / quantiles.length := by
      intro l
      induction l with
      | nil => simp
      | cons z l ih => rw [List.map_cons, List.sum_cons, ih, List.sum_cons]; push_cast; ring
    rw [hl, h]; push_cast; rfl
  have hle := List.countP_le_length (p := fun v => decide (inRange edges v)) (l := quantiles)
  refine ⟨_, ?_, by simpa using hlen, ?_, ?_, hsum, ?_, ?_⟩
  · have hne : edges.isEmpty = false := by
      cases edges with
      | nil => simp at h2
      | cons => rfl
    have hok := (edgesOk_iff edges).2 hs
    simp only [pmf, histogram, hne, hok, Bool.not_true, Bool.or_self, Bool.false_eq_true, if_false]
  · intro i hi
    rw [List.getElem?_map, hget i hi]
    simp
  · intro e he
    obtain ⟨z, hz, rfl⟩ := List.mem_map.1 he
    obtain ⟨i, hi, rfl⟩ := List.mem_iff_getElem.1 hz
    have := hget i (by omega)
    rw [List.getElem?_eq_getElem hi, Option.some.injEq] at this
    rw [this]
    exact div_nonneg (by exact_mod_cast Nat.zero_le _) hpos.le
  · rw [hsum, div_le_one hpos]; exact_mod_cast hle
  · rw [hsum, div_eq_one_iff_eq hpos.ne']
    have : ((quantiles.countP (fun v => decide (inRange edges v)) : ℚ) = (quantiles.length : ℚ))
        ↔ quantiles.countP (fun v => decide (inRange edges v)) = quantiles.length := by
      exact_mod_cast Iff.rfl
    rw [this, List.countP_eq_length]
    simp

/-- **C11.** Every value in the range lies in exactly one bin. -/
theorem C11_unique_bin (edges : List ℚ) (hs : edges.Pairwise (· ≤ ·)) (i j : Nat) (v : ℚ)
    (hi : inBin edges i v) (hj : inBin edges j v) : i = j := by
  have key : ∀ i j, i < j → inBin edges i v → inBin edges j v → False := by
    intro i j hij ⟨lo, hi, h1, h2, h3, h4⟩ ⟨lo', hi', h1', h2', h3', h4'⟩
    obtain ⟨hjlt, rfl⟩ := List.getElem?_eq_some_iff.1 h1'
    obtain ⟨hj1, rfl⟩ := List.getElem?_eq_some_iff.1 h2'
    obtain ⟨hilt, rfl⟩ := List.getElem?_eq_some_iff.1 h2
    rw [if_neg (by omega)] at h4
    have : edges[i + 1] ≤ edges[j] := by
      rcases Nat.lt_or_eq_of_le (show i + 1 ≤ j by omega) with h | h
      · exact List.pairwise_iff_getElem.1 hs _ _ hilt hjlt h
      · subst h; exact le_refl _
    linarith
  rcases Nat.lt_trichotomy i j with h | h | h
  · exact (key i j h hi hj).elim
  · exact h
  · exact (key j i h hj hi).elim

/-- **C11.** Decreasing edges are rejected. -/
theorem C11_bad_edges (n : Nat) (quantiles edges : List ℚ) (hs : ¬ edges.Pairwise (· ≤ ·)) :
    pmf n quantiles edges = .error .valueError := by
  have : edgesOk edges = false := by
    rw [← Bool.not_eq_true, edgesOk_iff]; exact hs
  simp [pmf, histogram, this]

/-! ### Concrete instances -/

example : pmf 4 [0, 1, 2, 5] [0, 1, 2] = .ok [1/4, 1/2] := by decide +kernel
example : ([0, 1, 2] : List ℚ).Pairwise (· ≤ ·) := by norm_num
example : inBin [0, 1, 2] 1 2 := by norm_num [inBin]

end PyF.Pmf
