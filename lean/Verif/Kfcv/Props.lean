import Verif.Kfcv.Model
import Verif.Transform.Causal
import Mathlib.Algebra.Order.Group.Unbundled.Int
import Mathlib.Data.List.Sort
import Mathlib.Tactic.Linarith
import Mathlib.Tactic.Ring

namespace PyF.Kfcv

/-! ### Specification -/

/-- `D` is the largest absolute start time (0 without any). -/
def IsMaxAbs (starts : List Int) (D : Int) : Prop :=
  (∀ s ∈ starts, |s| ≤ D) ∧ (D = 0 ∨ ∃ s ∈ starts, |s| = D)

/-- Rows marked `true` in a mask. -/
def Marked (m : List Bool) (i : Nat) : Prop := m[i]? = some true

/-! ### Lemmas -/

theorem deadband_isMax (l : List Int) : IsMaxAbs l (deadband l) ∧ 0 ≤ deadband l := by
  unfold deadband
  induction l with
  | nil => exact ⟨⟨by simp, Or.inl rfl⟩, le_refl _⟩
  | cons a l ih =>
    obtain ⟨⟨h1, h2⟩, h3⟩ := ih
    simp only [List.map_cons, List.foldr_cons]
    generalize (l.map (fun s => |s|)).foldr max 0 = D at *
    refine ⟨⟨?_, ?_⟩, le_trans h3 (le_max_right _ _)⟩
    · intro s hs
      rcases List.mem_cons.1 hs with rfl | hs
      · exact le_max_left _ _
      · exact le_trans (h1 s hs) (le_max_right _ _)
    · rcases le_total |a| D with hd | hd
      · rw [max_eq_right hd]
        rcases h2 with h2 | ⟨s, hs, h2⟩
        · exact Or.inl h2
        · exact Or.inr ⟨s, List.mem_cons_of_mem _ hs, h2⟩
      · rw [max_eq_left hd]
        exact Or.inr ⟨a, List.mem_cons_self, rfl⟩

theorem isMaxAbs_unique {l : List Int} {D E : Int} (hD : IsMaxAbs l D) (hE : IsMaxAbs l E) (h0 : 0 ≤ D) (h1 : 0 ≤ E) : D = E := by
  apply le_antisymm
  · rcases hD.2 with h | ⟨s, hs, h⟩
    · omega
    · rw [← h]; exact hE.1 s hs
  · rcases hE.2 with h | ⟨s, hs, h⟩
    · omega
    · rw [← h]; exact hD.1 s hs

theorem timeWindow_eq (a b : Int) (nk : Nat) : timeWindow a b nk = (b - a) / ((nk : Int) - 1) := by
  simp [timeWindow, dateRange]

/-- The shape of a successful result. -/
theorem kfcv_ok {idx : List Int} {nk mult : Nat} {starts : List (List Int)} {folds : List (List Bool × List Bool)}
    (h : kfcv idx nk mult starts = .ok folds) :
    2 ≤ nk ∧ starts ≠ [] ∧ ∃ a b, idx.head? = some a ∧ idx.getLast? = some b ∧
      deadband starts.flatten ≤ timeWindow a b nk ∧
      folds = (List.range (nk * mult)).map (fun i =>
        (trainMask idx (deadband starts.flatten) (dateRange a (b - timeWindow a b nk) (nk * mult) i)
          (timeWindow a b nk + dateRange a (b - timeWindow a b nk) (nk * mult) i),
         testMask idx (dateRange a (b - timeWindow a b nk) (nk * mult) i)
          (timeWindow a b nk + dateRange a (b - timeWindow a b nk) (nk * mult) i))) := by
  unfold kfcv at h
  split at h
  · cases h
  · split at h
    · rename_i a b ha hb
      split at h
      · cases h
      · rename_i hne
        simp only at h
        split at h
        · cases h
        · rename_i h2 _ hdb
          injection h with h
          refine ⟨by omega, hne, a, b, ha, hb, by omega, h.symm⟩
    · cases h

theorem mask_marked {idx : List Int} {f : Int → Bool} {i : Nat} {t : Int} (h : idx[i]? = some t) :
    Marked (idx.map f) i ↔ f t = true := by
  simp [Marked, List.getElem?_map, h]

theorem dateRange_bounds {a c : Int} (hac : a ≤ c) {n j : Nat} (hn : 2 ≤ n) (hj : j < n) :
    a ≤ dateRange a c n j ∧ dateRange a c n j ≤ c := by
  unfold dateRange
  have hn1 : (0 : Int) < (n : Int) - 1 := by omega
  constructor
  · have : 0 ≤ ((j : Int) * (c - a)) / ((n : Int) - 1) :=
      Int.ediv_nonneg (mul_nonneg (by omega) (by omega)) (by omega)
    omega
  · have h1 : ((j : Int) * (c - a)) / ((n : Int) - 1) ≤ (((n : Int) - 1) * (c - a)) / ((n : Int) - 1) := by
      apply Int.ediv_le_ediv hn1
      exact mul_le_mul_of_nonneg_right (by omega) (by omega)
    rw [Int.mul_ediv_cancel_left _ (by omega)] at h1
    omega

theorem sorted_bounds {idx : List Int} (hs : idx.Pairwise (· ≤ ·)) {a b : Int} (ha : idx.head? = some a)
    (hb : idx.getLast? = some b) : ∀ t ∈ idx, a ≤ t ∧ t ≤ b := by
  intro t ht
  constructor
  · cases idx with
    | nil => cases ht
    | cons x l =>
      simp only [List.head?_cons, Option.some.injEq] at ha
      subst ha
      rcases List.mem_cons.1 ht with rfl | ht
      · exact le_refl _
      · exact (List.pairwise_cons.1 hs).1 t ht
  · obtain ⟨l, rfl⟩ : ∃ l, idx = l ++ [b] := by
      rw [List.getLast?_eq_some_iff] at hb
      exact hb
    rcases List.mem_append.1 ht with ht | ht
    · exact (List.pairwise_append.1 hs).2.2 t ht b (by simp)
    · simp at ht; omega

/-! ### C26 -/

/-- C26 (acceptance): folds are produced iff `n_k ≥ 2`, the index is not empty, there is a transformer, and the largest
look-back fits in a test window of `⌊(last - first)/(n_k - 1)⌋`. -/
theorem C26_accepts_iff (idx : List Int) (nk mult : Nat) (starts : List (List Int)) :
    (∃ folds, kfcv idx nk mult starts = .ok folds) ↔
      2 ≤ nk ∧ starts ≠ [] ∧ ∃ a b, idx.head? = some a ∧ idx.getLast? = some b ∧
        ∀ D, 0 ≤ D → IsMaxAbs starts.flatten D → D ≤ (b - a) / ((nk : Int) - 1) := by
  constructor
  · rintro ⟨folds, h⟩
    obtain ⟨h1, h2, a, b, ha, hb, hd, -⟩ := kfcv_ok h
    refine ⟨h1, h2, a, b, ha, hb, ?_⟩
    intro D h0 hD
    rw [isMaxAbs_unique hD (deadband_isMax _).1 h0 (deadband_isMax _).2, ← timeWindow_eq]
    exact hd
  · rintro ⟨h1, h2, a, b, ha, hb, hd⟩
    have := hd _ (deadband_isMax _).2 (deadband_isMax _).1
    rw [← timeWindow_eq] at this
    unfold kfcv
    rw [if_neg (by omega), ha, hb]
    simp only
    rw [if_neg h2, if_neg (by omega)]
    exact ⟨_, rfl⟩

/-- C26: there are `n_k · multiplier` folds. In each the masks have one entry per row, the test rows are exactly those
in one closed window of width `⌊(last - first)/(n_k - 1)⌋` and the training rows are exactly those further than the
largest look-back from the window. On a sorted index the window lies within the period. -/
theorem C26_folds_separate {idx : List Int} {nk mult : Nat} {starts : List (List Int)}
    {folds : List (List Bool × List Bool)} (h : kfcv idx nk mult starts = .ok folds) :
    folds.length = nk * mult ∧ ∀ f ∈ folds, f.1.length = idx.length ∧ f.2.length = idx.length ∧
      ∃ lo hi D a b : Int, 0 ≤ D ∧ IsMaxAbs starts.flatten D ∧ idx.head? = some a ∧ idx.getLast? = some b ∧
        hi - lo = (b - a) / ((nk : Int) - 1) ∧ D ≤ hi - lo ∧
        (idx.Pairwise (· ≤ ·) → a ≤ lo ∧ hi ≤ b) ∧
        ∀ (i : Nat) (t : Int), idx[i]? = some t → (Marked f.2 i ↔ lo ≤ t ∧ t ≤ hi) ∧ (Marked f.1 i ↔ t < lo - D ∨ hi + D < t) := by
  obtain ⟨h1, h2, a, b, ha, hb, hd, rfl⟩ := kfcv_ok h
  refine ⟨by simp, ?_⟩
  intro f hf
  simp only [List.mem_map, List.mem_range] at hf
  obtain ⟨j, hj, rfl⟩ := hf
  refine ⟨by simp [trainMask], by simp [testMask], ?_⟩
  set w := timeWindow a b nk with hw
  set lo := dateRange a (b - w) (nk * mult) j with hlo
  refine ⟨lo, w + lo, deadband starts.flatten, a, b, (deadband_isMax _).2, (deadband_isMax _).1, ha, hb, ?_, by omega, ?_, ?_⟩
  · rw [hw, timeWindow_eq]; omega
  · intro hs
    have hab : a ≤ b := by
      have := sorted_bounds hs ha hb a (List.mem_of_head? ha)
      omega
    have hm : 1 ≤ mult := by
      rcases Nat.eq_zero_or_pos mult with h0 | h0
      · rw [h0] at hj; simp at hj
      · exact h0
    have hM : 2 ≤ nk * mult := le_trans h1 (Nat.le_mul_of_pos_right nk hm)
    have hwb : w ≤ b - a := by
      rw [hw, timeWindow_eq]
      exact Int.ediv_le_self _ (by omega)
    have := dateRange_bounds (a := a) (c := b - w) (by omega) hM hj
    rw [← hlo] at this
    omega
  · intro i t hit
    refine ⟨?_, ?_⟩
    · simp only [testMask]
      rw [mask_marked hit]
      simp
    · simp only [trainMask]
      rw [mask_marked hit]
      simp

/-- C26 (separation): in every fold no row is both training and test, and any training time stamp is more than the
largest look-back away from any test time stamp. -/
theorem C26_no_training_row_near_test {idx : List Int} {nk mult : Nat} {starts : List (List Int)}
    {folds : List (List Bool × List Bool)} (h : kfcv idx nk mult starts = .ok folds) :
    ∀ f ∈ folds, (∀ i, ¬ (Marked f.1 i ∧ Marked f.2 i)) ∧
      ∀ (i j : Nat) (t u : Int), idx[i]? = some t → idx[j]? = some u → Marked f.1 i → Marked f.2 j → ∀ s ∈ starts.flatten, |s| < |t - u| := by
  intro f hf
  obtain ⟨l1, l2, lo, hi, D, a, b, h0, hD, -, -, -, hDw, -, hm⟩ := (C26_folds_separate h).2 f hf
  refine ⟨?_, ?_⟩
  · rintro i ⟨h1, h2⟩
    have hi' : i < idx.length := by
      rw [← l1]
      by_contra hc
      simp [Marked, List.getElem?_eq_none (Nat.le_of_not_lt hc)] at h1
    have hm' := hm i _ (List.getElem?_eq_getElem hi')
    rw [hm'.1] at h2
    rw [hm'.2] at h1
    omega
  · intro i j t u hi' hj' h1 h2 s hs
    rw [(hm i t hi').2] at h1
    rw [(hm j u hj').1] at h2
    have := hD.1 s hs
    rw [lt_abs]
    omega

/-! ### C27 -/

/-- C27: on a sorted index every row is a test row of some fold, for every `n_k ≥ 2` and multiplier ≥ 1. -/
theorem C27_every_row_tested {idx : List Int} {nk mult : Nat} {starts : List (List Int)}
    {folds : List (List Bool × List Bool)} (h : kfcv idx nk mult starts = .ok folds) (hs : idx.Pairwise (· ≤ ·))
    (hmult : 1 ≤ mult) (i : Nat) (hi : i < idx.length) : ∃ f ∈ folds, Marked f.2 i := by
  obtain ⟨h1, h2, a, b, ha, hb, hd, rfl⟩ := kfcv_ok h
  obtain ⟨hat, htb⟩ := sorted_bounds hs ha hb idx[i] (List.getElem_mem hi)
  set t := idx[i] with ht
  set w := timeWindow a b nk with hw
  have hwdef : w = (b - a) / ((nk : Int) - 1) := timeWindow_eq a b nk
  set M := nk * mult with hM
  have hMge : nk ≤ M := Nat.le_mul_of_pos_right nk hmult
  have hm0 : (0 : Int) < (nk : Int) - 1 := by omega
  have hM0 : (0 : Int) < (M : Int) - 1 := by omega
  have hw0 : 0 ≤ w := by rw [hwdef]; exact Int.ediv_nonneg (by omega) (by omega)
  have hspan : b - a < ((nk : Int) - 1) * (w + 1) := by
    have := Int.lt_mul_ediv_self_add (x := b - a) hm0
    rw [← hwdef] at this
    linarith
  have hstep : ∀ j : Nat, dateRange a (b - w) M (j + 1) ≤ dateRange a (b - w) M j + (w + 1) := by
    intro j
    unfold dateRange
    have hle : ((j + 1 : Nat) : Int) * (b - w - a) ≤ (j : Int) * (b - w - a) + ((M : Int) - 1) * (w + 1) := by
      push_cast
      have h5 : ((nk : Int) - 1) * (w + 1) ≤ ((M : Int) - 1) * (w + 1) :=
        mul_le_mul_of_nonneg_right (by omega) (by omega)
      linarith
    have := Int.ediv_le_ediv hM0 hle
    rw [Int.add_mul_ediv_left _ _ (by omega)] at this
    omega
  have hlast : dateRange a (b - w) M (M - 1) = b - w := by
    unfold dateRange
    have : ((M - 1 : Nat) : Int) = (M : Int) - 1 := by omega
    rw [this, Int.mul_ediv_cancel_left _ (by omega)]
    omega
  have hfirst : dateRange a (b - w) M 0 = a := by simp [dateRange]
  have key : ∀ j : Nat, t ≤ dateRange a (b - w) M j + w → ∃ k ≤ j, dateRange a (b - w) M k ≤ t ∧ t ≤ dateRange a (b - w) M k + w := by
    intro j
    induction j with
    | zero => intro h; exact ⟨0, le_refl _, by rw [hfirst]; exact hat, h⟩
    | succ j ih =>
      intro h
      rcases le_or_gt (dateRange a (b - w) M (j + 1)) t with h5 | h5
      · exact ⟨j + 1, le_refl _, h5, h⟩
      · have := hstep j
        obtain ⟨k, hk, hk'⟩ := ih (by omega)
        exact ⟨k, by omega, hk'⟩
  obtain ⟨k, hk, hk1, hk2⟩ := key (M - 1) (by rw [hlast]; omega)
  refine ⟨_, List.mem_map.2 ⟨k, List.mem_range.2 (by omega), rfl⟩, ?_⟩
  simp only [testMask]
  rw [mask_marked (List.getElem?_eq_getElem hi)]
  simp only [ge_iff_le, Bool.and_eq_true, decide_eq_true_eq]
  omega

/-- C27 (two folds): with `n_k = 2` every fold tests every row and trains on none. -/
theorem C27_two_folds_degenerate {idx : List Int} {mult : Nat} {starts : List (List Int)}
    {folds : List (List Bool × List Bool)} (h : kfcv idx 2 mult starts = .ok folds) (hs : idx.Pairwise (· ≤ ·)) :
    ∀ f ∈ folds, ∀ i < idx.length, Marked f.2 i ∧ ¬ Marked f.1 i := by
  intro f hf i hi
  obtain ⟨l1, l2, lo, hi', D, a, b, h0, hD, ha, hb, hw, -, hin, hm⟩ := (C26_folds_separate h).2 f hf
  have hb' := sorted_bounds hs ha hb idx[i] (List.getElem_mem hi)
  have hm' := hm i _ (List.getElem?_eq_getElem hi)
  have := hin hs
  have hw' : hi' - lo = b - a := by rw [hw]; norm_num
  rw [hm'.1, hm'.2]
  omega

/-! ### C28 -/

/-- C28 (targets): a training row's samples up to `D` ahead or behind are outside the test window, where `D` is the
largest look-back. So targets looking at most `D` ahead do not leak. -/
theorem C28_short_reach_never_leaks {idx : List Int} {nk mult : Nat} {starts : List (List Int)}
    {folds : List (List Bool × List Bool)} (h : kfcv idx nk mult starts = .ok folds) (D : Int) (h0 : 0 ≤ D)
    (hD : IsMaxAbs starts.flatten D) (δ : Int) (hδ : |δ| ≤ D) :
    ∀ f ∈ folds, ∀ (i j : Nat) (t u : Int), idx[i]? = some t → idx[j]? = some u → Marked f.1 i → u = t + δ → ¬ Marked f.2 j := by
  intro f hf i j t u hi' hj' h1 hu h2
  obtain ⟨l1, l2, lo, hi, D', a, b, h0', hD', -, -, -, hDw, -, hm⟩ := (C26_folds_separate h).2 f hf
  rw [isMaxAbs_unique hD hD' h0 h0'] at hδ
  rw [(hm i t hi').2] at h1
  rw [(hm j u hj').1] at h2
  rw [abs_le] at hδ
  omega

/-- The hourly-like index `0, 1, …, n`. -/
def grid (n : Nat) : List Int := (List.range (n + 1)).map (fun (k : Nat) => (k : Int))

/-- C28 (leak): for every look-back `D` and every look-ahead `H > D` there are an index, three folds and a training row
whose target, `H` ahead, is a row of the test window of the same fold. -/
theorem C28_longer_lookahead_leaks (D H : Nat) (hDH : D < H) :
    ∃ (idx : List Int) (starts : List (List Int)) (folds : List (List Bool × List Bool)),
      kfcv idx 3 1 starts = .ok folds ∧ IsMaxAbs starts.flatten D ∧
      ∃ f ∈ folds, ∃ (i j : Nat) (t u : Int), idx[i]? = some t ∧ idx[j]? = some u ∧ Marked f.1 i ∧ Marked f.2 j ∧ u = t + H := by
  have hmax : IsMaxAbs [[-(D : Int)]].flatten D := by
    refine ⟨?_, Or.inr ⟨-(D : Int), by simp, by simp⟩⟩
    intro s hs
    simp at hs
    subst hs
    simp
  have hhead : (grid (2 * H)).head? = some 0 := by
    simp [grid, List.head?_map, List.head?_range]
  have hlast : (grid (2 * H)).getLast? = some (2 * H : Int) := by
    simp [grid, List.getLast?_map, List.getLast?_range]
  have hget : ∀ k : Nat, k ≤ 2 * H → (grid (2 * H))[k]? = some (k : Int) := by
    intro k hk
    simp only [grid, List.getElem?_map]
    rw [List.getElem?_range (by omega)]
    rfl
  obtain ⟨folds, hf⟩ := (C26_accepts_iff (grid (2 * H)) 3 1 [[-(D : Int)]]).2
    ⟨by omega, by simp, 0, 2 * H, hhead, hlast, by
      intro E h0 hE
      rw [isMaxAbs_unique hE hmax h0 (by omega)]
      have : ((2 * H : Int) - 0) / (((3 : Nat) : Int) - 1) = H := by omega
      rw [this]
      omega⟩
  refine ⟨_, _, folds, hf, hmax, ?_⟩
  obtain ⟨h1, h2, a, b, ha, hb, hd, rfl⟩ := kfcv_ok hf
  rw [hhead] at ha
  rw [hlast] at hb
  obtain rfl := Option.some.inj ha
  obtain rfl := Option.some.inj hb
  have hdb : deadband ([[-(D : Int)]] : List (List Int)).flatten = D :=
    isMaxAbs_unique (deadband_isMax _).1 hmax (deadband_isMax _).2 (by omega)
  have hw : timeWindow 0 (2 * H : Int) 3 = H := by
    rw [timeWindow_eq]
    omega
  have hlo : dateRange 0 ((2 * H : Int) - H) (3 * 1) 2 = H := by
    unfold dateRange
    have : (((2 : Nat) : Int) * ((2 * H : Int) - H - 0)) = (((3 * 1 : Nat) : Int) - 1) * H := by push_cast; ring
    rw [this, Int.mul_ediv_cancel_left _ (by omega)]
    omega
  refine ⟨_, List.mem_map.2 ⟨2, by simp, rfl⟩, H - D - 1, 2 * H - D - 1, (H : Int) - D - 1, (2 * H : Int) - D - 1, ?_, ?_, ?_, ?_, by omega⟩
  · rw [hget _ (by omega)]; congr 1; omega
  · rw [hget _ (by omega)]; congr 1; omega
  · simp only [trainMask]
    rw [mask_marked (t := (H : Int) - D - 1) (by rw [hget _ (by omega)]; congr 1; omega)]
    rw [hdb, hw, hlo]
    simp only [gt_iff_lt, Bool.or_eq_true, decide_eq_true_eq]
    omega
  · simp only [testMask]
    rw [mask_marked (t := (2 * H : Int) - D - 1) (by rw [hget _ (by omega)]; congr 1; omega)]
    rw [hw, hlo]
    simp only [ge_iff_le, Bool.and_eq_true, decide_eq_true_eq]
    omega

theorem mem_zipWith_of {α β γ : Type} (f : α → β → γ) (l : List α) (m : List β) (x : γ) (h : x ∈ List.zipWith f l m) :
    ∃ a ∈ l, ∃ b ∈ m, x = f a b := by
  induction l generalizing m with
  | nil => cases h
  | cons a l ih => cases m with
    | nil => cases h
    | cons b m =>
      rw [List.zipWith_cons_cons] at h
      rcases List.mem_cons.1 h with h | h
      · exact ⟨a, List.mem_cons_self, b, List.mem_cons_self, h⟩
      · obtain ⟨c, hc, d, hd, e⟩ := ih m h
        exact ⟨c, List.mem_cons_of_mem _ hc, d, List.mem_cons_of_mem _ hd, e⟩

section
open PyF.Transform PyF.Names

theorem genMeta_start (tr : Transformer) (F : Frame) (w : Nat) (hreg : Regular tr F w) (nm : Str)
    (q : Option Int × Str × (List ℚ → Option ℚ)) (hq : q ∈ features tr) :
    ∃ m ∈ genMeta tr (tr.agg.resolve (samplingTime tr F)) (samplingTime tr F) nm,
      m.start = -(rowLag tr w q.1 * samplingTime tr F) - w * samplingTime tr F + samplingTime tr F := by
  unfold genMeta
  simp only
  rw [← features_rows, hreg.steps, ← features_names tr _ nm, List.zipWith_map, List.zipWith_self]
  refine ⟨_, List.mem_map.2 ⟨q, hq, rfl⟩, ?_⟩
  have e : (if tr.relative = true then (samplingTime tr F : Int) * w else samplingTime tr F) * q.1.getD 0
      = rowLag tr w q.1 * samplingTime tr F := by
    unfold rowLag
    split <;> ring
  simp only [e]

theorem features_lag_nonneg (tr : Transformer) (hl : NonNegLags tr) (w : Nat) (q : Option Int × Str × (List ℚ → Option ℚ))
    (hq : q ∈ features tr) : 0 ≤ rowLag tr w q.1 := by
  have h : 0 ≤ q.1.getD 0 := by
    unfold features at hq
    cases hls : tr.lags with
    | none =>
      rw [hls] at hq
      obtain ⟨f, _, rfl⟩ := List.mem_map.1 hq
      exact le_refl _
    | some ls =>
      rw [hls] at hq
      obtain ⟨l, hl', hr⟩ := List.mem_flatMap.1 hq
      obtain ⟨f, _, rfl⟩ := List.mem_map.1 hr
      exact hl ls hls l hl'
  unfold rowLag
  apply mul_nonneg h
  split
  · positivity
  · exact zero_le_one

/-- The time stamps of a frame of `n` rows. -/
def stamps (dt n : Nat) : List Int := (List.range n).map (fun (k : Nat) => (k : Int) * dt)

/-- C28 (features): with non-negative lags and the deadband computed from the transformer's own metadata, the feature
values of a training row do not depend on the samples of the test rows of its fold: two frames that differ only there
get the same features on every training row. -/
theorem C28_training_features_ignore_test_rows (tr : Transformer) (w n nk mult : Nat) (F G : Frame) (hdt : F.dt = G.dt)
    (hda : tr.dtArg = none) (hreg : Regular tr F w) (hacc : Accepts tr F) (haccG : Accepts tr G) (hl : NonNegLags tr)
    (hlen : ∀ nm ∈ tr.names, (F.get nm).length = n ∧ (G.get nm).length = n)
    (tr1 tr2 : Transformer) (X Y : Frame) (ms ms' : List Meta)
    (hX : transform tr false F = .ok (tr1, X, ms)) (hY : transform tr false G = .ok (tr2, Y, ms'))
    (folds : List (List Bool × List Bool))
    (h : kfcv (stamps F.dt n) nk mult [ms.map Meta.start] = .ok folds)
    (f : List Bool × List Bool) (hf : f ∈ folds)
    (hagree : ∀ nm ∈ tr.names, ∀ s : Nat, s < n → ¬ Marked f.2 s → (F.get nm)[s]? = (G.get nm)[s]?)
    (t : Nat) (ht : t < n) (htr : Marked f.1 t) :
    List.Forall₂ (fun p q : Str × Col => p.1 = q.1 ∧ p.2[t]? = q.2[t]?) X.cols Y.cols := by
  have hsF : samplingTime tr F = F.dt := by simp [samplingTime, hda]
  have hsG : samplingTime tr G = F.dt := by simp [samplingTime, hda, hdt]
  have hregG : Regular tr G w := ⟨by rw [← hdt]; exact hreg.dt_pos, hreg.w_pos, by rw [← hdt]; exact hreg.stated, hreg.single⟩
  have a1 := transform_ok tr F false hacc
  have a2 := transform_ok tr G false haccG
  rw [hX] at a1
  rw [hY] at a2
  simp only [Except.ok.injEq, Prod.mk.injEq] at a1 a2
  obtain ⟨-, rfl, rfl⟩ := a1
  obtain ⟨-, rfl, -⟩ := a2
  simp only [Bool.false_eq_true, if_false, List.nil_append]
  obtain ⟨lo, hi, D, a, b, h0, hD, -⟩ := ((C26_folds_separate h).2 f hf).2.2
  have hget : ∀ k : Nat, k < n → (stamps F.dt n)[k]? = some ((k : Int) * F.dt) := by
    intro k hk
    simp only [stamps, List.getElem?_map]
    rw [List.getElem?_range hk]
    rfl
  have hfar : ∀ s : Nat, s < n → |((s : Int) - t) * F.dt| ≤ D → ¬ Marked f.2 s := by
    intro s hs hδ
    exact C28_short_reach_never_leaks h D h0 hD _ hδ f hf t s _ _ (hget t ht) (hget s hs) htr (by ring)
  apply forall₂_flatMap
  intro nm hnm
  obtain ⟨l1, l2⟩ := hlen nm hnm
  have s1 := genCols_spec tr F w hreg nm (F.get nm)
  have s2 := genCols_spec tr G w hregG nm (G.get nm)
  have n1 := genCols_names tr (tr.agg.resolve (samplingTime tr F)) (samplingTime tr F) nm (F.get nm)
  have n2 := genCols_names tr (tr.agg.resolve (samplingTime tr G)) (samplingTime tr G) nm (G.get nm)
  have hn12 : (genCols tr (tr.agg.resolve (samplingTime tr F)) (samplingTime tr F) nm (F.get nm)).map Prod.fst
      = (genCols tr (tr.agg.resolve (samplingTime tr G)) (samplingTime tr G) nm (G.get nm)).map Prod.fst := by
    rw [n1, n2, hsF, hsG]
  have hstart : ∀ q ∈ features tr, |(-(rowLag tr w q.1 * F.dt) - w * F.dt + F.dt : Int)| ≤ D := by
    intro q hq
    obtain ⟨m, hm, e⟩ := genMeta_start tr F w hreg nm q hq
    rw [hsF] at e
    rw [← e]
    refine hD.1 _ ?_
    simp only [List.flatten_cons, List.flatten_nil, List.append_nil, List.mem_map]
    exact ⟨m, List.mem_flatMap.2 ⟨nm, hnm, hm⟩, rfl⟩
  have hcol : ∀ q ∈ features tr, ∀ c d : Col, IsAgg w (rowLag tr w q.1) q.2.2 (F.get nm) c →
      IsAgg w (rowLag tr w q.1) q.2.2 (G.get nm) d → c[t]? = d[t]? := by
    intro q hq c d hc hd
    refine C18_outside_window_irrelevant w _ _ _ _ c d hc hd t (by rw [l1]; exact ht) (by rw [l2]; exact ht) ?_
    intro s hs1 hs2
    rcases lt_or_ge s 0 with hs | hs
    · rw [sample_neg _ _ hs, sample_neg _ _ hs]
    · rcases lt_or_ge s n with hsn | hsn
      · obtain ⟨k, rfl⟩ := Int.eq_ofNat_of_zero_le hs
        rw [sample_nat, sample_nat, hagree nm hnm k (by omega)]
        apply hfar k (by omega)
        have hL := features_lag_nonneg tr hl w q hq
        have hb := (abs_le.1 (hstart q hq)).1
        have hd0 : (0 : Int) ≤ F.dt := by positivity
        rw [abs_le]
        constructor
        · have : (-(rowLag tr w q.1) - w + 1) * (F.dt : Int) ≤ ((k : Int) - t) * F.dt :=
            mul_le_mul_of_nonneg_right (by omega) hd0
          linarith
        · have : ((k : Int) - t) * F.dt ≤ 0 := mul_nonpos_of_nonpos_of_nonneg (by omega) hd0
          linarith
      · rw [sample_out _ _ (by rw [l1]; exact hsn), sample_out _ _ (by rw [l2]; exact hsn)]
  generalize genCols tr (tr.agg.resolve (samplingTime tr F)) (samplingTime tr F) nm (F.get nm) = A at *
  generalize genCols tr (tr.agg.resolve (samplingTime tr G)) (samplingTime tr G) nm (G.get nm) = B at *
  clear n1 n2
  generalize features tr = fe at *
  clear h hstart
  induction s1 generalizing B with
  | nil => cases s2; exact .nil
  | @cons p q ps qs hp _ ih =>
    cases s2 with
    | @cons r _ rs _ hr hrs =>
      simp only [List.map_cons, List.cons.injEq] at hn12
      exact .cons ⟨hn12.1, hcol q List.mem_cons_self _ _ hp hr⟩
        (ih _ hn12.2 (fun q hq => hcol q (List.mem_cons_of_mem _ hq)) hrs)

/-- Two rows of look-back on a grid of 10 rows. -/
def exTr : Transformer :=
  { names := ["p".toList], functions := [], agg := .unset, lags := some [0, 2], relative := false, dtArg := none }

def exF (v : ℚ) : Frame := ⟨1, [("p".toList, [some 0, some 1, some 2, some 3, some 4, some 5, some 6, some 7, some v, some v])]⟩

/-- `C28_training_features_ignore_test_rows` applies to this: row 0 is a training row of the fold testing rows 8 and
9 among others, and the metadata starts are 0 and -2. -/
example : ∃ tr1 X ms folds f, transform exTr false (exF 8) = .ok (tr1, X, ms) ∧ ms.map Meta.start = [0, -2] ∧
    kfcv (stamps 1 10) 4 1 [ms.map Meta.start] = .ok folds ∧ f ∈ folds ∧ Marked f.1 0 ∧ Marked f.2 8 ∧ Marked f.2 9 ∧
    ¬ Marked f.2 5 ∧ ¬ Marked f.1 5 := by
  refine ⟨_, _, _, _, _, rfl, by decide +kernel, rfl, List.mem_map.2 ⟨3, by simp, rfl⟩, ?_⟩
  unfold Marked
  decide +kernel

example : Regular exTr (exF 8) 1 ∧ Accepts exTr (exF 8) ∧ NonNegLags exTr := by
  refine ⟨⟨by decide, by decide, rfl, fun _ => rfl⟩, ⟨?_, by decide⟩, ?_⟩
  · intro nm h
    simp only [exTr, List.mem_cons, List.not_mem_nil, or_false] at h
    subst h
    exact ⟨_, List.mem_cons_self⟩
  · intro ls h l hl
    simp only [exTr, Option.some.injEq] at h
    subst h
    simp only [List.mem_cons, List.not_mem_nil, or_false] at hl
    omega
end

/-! ### Non-vacuity -/

/-- Irregular index, three folds, multiplier 2. -/
example : ∃ folds, kfcv [0, 1, 5, 6, 20, 21, 40] 3 2 [[-1, -5], [0]] = .ok folds ∧
    folds[0]? = some ([false, false, false, false, false, false, true], [true, true, true, true, true, false, false]) := by
  refine ⟨_, rfl, ?_⟩
  decide +kernel

example : kfcv [0, 1, 5, 6, 20, 21, 40] 3 2 [[-21]] = .error .runtimeError := by rfl

end PyF.Kfcv
