import Verif.FfNet.Props
import Mathlib.Algebra.Order.Chebyshev

/-! C304: small changes of the features change feed-forward forecasts a little. -/

namespace PyF.FfNet
open PyF PyF.LstmNet

/-- Vectors that differ by at most `d` in each entry. -/
def Close (m : ℕ) (d : ℝ) (x x' : ℕ → ℝ) : Prop := ∀ j < m, |x j - x' j| ≤ d

/-- Lists of the same length that differ by at most `d` in each entry. -/
def CloseL (d : ℝ) (a a' : List ℝ) : Prop := List.Forall₂ (fun p q => |p - q| ≤ d) a a'

theorem dense_close (D : Dense) (m : ℕ) (x x' : ℕ → ℝ) (d : ℝ) (h : Close m d x x') (k : ℕ) :
    |dense D m x k - dense D m x' k| ≤ (∑ j ∈ Finset.range m, |D.W k j|) * d := by
  unfold dense
  rw [add_sub_add_right_eq_sub, ← Finset.sum_sub_distrib, Finset.sum_mul]
  refine (Finset.abs_sum_le_sum_abs _ _).trans (Finset.sum_le_sum fun j hj => ?_)
  rw [← mul_sub, abs_mul]
  exact mul_le_mul_of_nonneg_left (h j (Finset.mem_range.1 hj)) (abs_nonneg _)

theorem relu_close (u v : ℝ) : |relu u - relu v| ≤ |u - v| := by
  unfold relu
  exact abs_max_sub_max_le_abs u v 0 |> fun h => by simpa [max_comm] using h

theorem mean_close (n : ℕ) (hn : 0 < n) (x x' : ℕ → ℝ) (d : ℝ) (h : Close n d x x') : |mean n x - mean n x'| ≤ d := by
  have hn' : (0 : ℝ) < n := by exact_mod_cast hn
  unfold mean
  rw [← sub_div, ← Finset.sum_sub_distrib, abs_div, abs_of_pos hn', div_le_iff₀ hn']
  refine (Finset.abs_sum_le_sum_abs _ _).trans ((Finset.sum_le_sum fun j hj => h j (Finset.mem_range.1 hj)).trans ?_)
  rw [Finset.sum_const, Finset.card_range, nsmul_eq_mul, mul_comm]

/-- The mean absolute deviation is at most the standard deviation. -/
theorem mad_le (n : ℕ) (hn : 0 < n) (x : ℕ → ℝ) : (∑ j ∈ Finset.range n, |x j - mean n x|) / n ≤ Real.sqrt (var n x + 1 / 1000000) := by
  have hn' : (0 : ℝ) < n := by exact_mod_cast hn
  refine Real.le_sqrt_of_sq_le ?_
  have h := sq_sum_le_card_mul_sum_sq (s := Finset.range n) (f := fun j => |x j - mean n x|)
  simp only [sq_abs, Finset.card_range] at h
  have e : var n x = (∑ j ∈ Finset.range n, (x j - mean n x) ^ 2) / n := rfl
  rw [div_pow, e]
  have : (∑ j ∈ Finset.range n, |x j - mean n x|) ^ 2 / (n : ℝ) ^ 2 ≤ (∑ j ∈ Finset.range n, (x j - mean n x) ^ 2) / n := by
    rw [div_le_div_iff₀ (by positivity) hn']
    nlinarith
  linarith

theorem sd_close (n : ℕ) (hn : 0 < n) (x x' : ℕ → ℝ) (d : ℝ) (hd : 0 ≤ d) (h : Close n d x x') :
    |Real.sqrt (var n x + 1 / 1000000) - Real.sqrt (var n x' + 1 / 1000000)| ≤ 2 * d := by
  have hn' : (0 : ℝ) < n := by exact_mod_cast hn
  have hm := mean_close n hn x x' d h
  have hv := var_nonneg n x
  have hv' := var_nonneg n x'
  have a1 := mad_le n hn x
  have a2 := mad_le n hn x'
  have p1 : 0 < Real.sqrt (var n x + 1 / 1000000) := Real.sqrt_pos.2 (by linarith)
  have p2 : 0 < Real.sqrt (var n x' + 1 / 1000000) := Real.sqrt_pos.2 (by linarith)
  have q1 : Real.sqrt (var n x + 1 / 1000000) ^ 2 = var n x + 1 / 1000000 := Real.sq_sqrt (by linarith)
  have q2 : Real.sqrt (var n x' + 1 / 1000000) ^ 2 = var n x' + 1 / 1000000 := Real.sq_sqrt (by linarith)
  generalize Real.sqrt (var n x + 1 / 1000000) = r at *
  generalize Real.sqrt (var n x' + 1 / 1000000) = r' at *
  have hvar : |var n x - var n x'| ≤ 2 * d * (r + r') := by
    have e : var n x - var n x' = (∑ j ∈ Finset.range n, ((x j - mean n x) - (x' j - mean n x')) * ((x j - mean n x) + (x' j - mean n x'))) / n := by
      unfold var
      rw [← sub_div, ← Finset.sum_sub_distrib]
      congr 1
      exact Finset.sum_congr rfl fun j _ => by ring
    rw [e, abs_div, abs_of_pos hn', div_le_iff₀ hn']
    refine (Finset.abs_sum_le_sum_abs _ _).trans ?_
    have h1 : ∑ j ∈ Finset.range n, |((x j - mean n x) - (x' j - mean n x')) * ((x j - mean n x) + (x' j - mean n x'))| ≤ ∑ j ∈ Finset.range n, 2 * d * (|x j - mean n x| + |x' j - mean n x'|) := by
      refine Finset.sum_le_sum fun j hj => ?_
      rw [abs_mul]
      refine mul_le_mul ?_ (abs_add_le _ _) (abs_nonneg _) (by linarith)
      have := h j (Finset.mem_range.1 hj)
      rw [abs_le] at this hm ⊢
      constructor <;> linarith [this.1, this.2, hm.1, hm.2]
    refine h1.trans ?_
    rw [← Finset.mul_sum, Finset.sum_add_distrib]
    rw [div_le_iff₀ hn'] at a1 a2
    nlinarith
  have hf : (r - r') * (r + r') = var n x - var n x' := by nlinarith
  have hs : 0 < r + r' := by linarith
  have : |r - r'| * (r + r') ≤ 2 * d * (r + r') := by
    rw [← abs_of_pos hs, ← abs_mul, hf, abs_of_pos hs]
    exact hvar
  exact le_of_mul_le_mul_right this hs

theorem norm_close (L : Norm) (n : ℕ) (x x' : ℕ → ℝ) (d : ℝ) (hd : 0 ≤ d) (h : Close n d x x') (k : ℕ) (hk : k < n) :
    |L.apply n x k - L.apply n x' k| ≤ 2000 * (1 + Real.sqrt n) * |L.g k| * d := by
  have hn : 0 < n := by omega
  have hm := mean_close n hn x x' d h
  have hsd := sd_close n hn x x' d hd h
  have hst := standard_le n x' k hk
  have hv := var_nonneg n x
  have hv' := var_nonneg n x'
  have hr : 1 / 1000 ≤ Real.sqrt (var n x + 1 / 1000000) := Real.le_sqrt_of_sq_le (by norm_num; linarith)
  have hr' : 1 / 1000 ≤ Real.sqrt (var n x' + 1 / 1000000) := Real.le_sqrt_of_sq_le (by norm_num; linarith)
  unfold Norm.apply
  rw [add_sub_add_right_eq_sub, ← sub_mul, abs_mul]
  have hc : |(x k - mean n x) - (x' k - mean n x')| ≤ 2 * d := by
    have := h k hk
    rw [abs_le] at this hm ⊢
    constructor <;> linarith [this.1, this.2, hm.1, hm.2]
  generalize Real.sqrt (var n x + 1 / 1000000) = r at *
  generalize Real.sqrt (var n x' + 1 / 1000000) = r' at *
  have p : 0 < r := by linarith
  have p' : 0 < r' := by linarith
  generalize x k - mean n x = u at *
  generalize x' k - mean n x' = u' at *
  have e : u / r - u' / r' = ((u - u') + u' / r' * (r' - r)) / r := by
    field_simp
    ring
  have hq : |u / r - u' / r'| ≤ 2000 * (1 + Real.sqrt n) * d := by
    rw [e, abs_div, abs_of_pos p, div_le_iff₀ p]
    have h1 : |(u - u') + u' / r' * (r' - r)| ≤ 2 * d + Real.sqrt n * (2 * d) := by
      refine (abs_add_le _ _).trans (add_le_add hc ?_)
      rw [abs_mul, abs_sub_comm r' r]
      exact mul_le_mul hst hsd (abs_nonneg _) (Real.sqrt_nonneg _)
    have h2 : 0 ≤ (1 + Real.sqrt n) * d := mul_nonneg (by positivity) hd
    nlinarith
  nlinarith [abs_nonneg (L.g k)]

theorem hidden_len (P : Params) (ns : List ℕ) : ∀ (i m : ℕ) (x : ℕ → ℝ), (hidden P i m x ns).1 = ns.getLastD m := by
  induction ns with
  | nil => intro i m x; rfl
  | cons n ns ih =>
    intro i m x
    show (hidden P (i + 1) n _ ns).1 = _
    rw [ih]
    cases ns <;> rfl

theorem hidden_close (P : Params) (ns : List ℕ) : ∀ (i m : ℕ), ∃ K : ℝ, 0 ≤ K ∧ ∀ (x x' : ℕ → ℝ) (d : ℝ), 0 ≤ d → Close m d x x' →
    Close (ns.getLastD m) (K * d) (hidden P i m x ns).2 (hidden P i m x' ns).2 := by
  induction ns with
  | nil => intro i m; exact ⟨1, by norm_num, fun x x' d _ h => by rw [one_mul]; exact h⟩
  | cons n ns ih =>
    intro i m
    obtain ⟨K, hK, ihK⟩ := ih (i + 1) n
    have hA : ∀ k, 0 ≤ ∑ j ∈ Finset.range m, |(P.layer i).W k j| := fun k => Finset.sum_nonneg fun _ _ => abs_nonneg _
    have hB : 0 ≤ ∑ k ∈ Finset.range n, ∑ j ∈ Finset.range m, |(P.layer i).W k j| := Finset.sum_nonneg fun k _ => hA k
    have hG : 0 ≤ ∑ k ∈ Finset.range n, |(P.norm i).g k| := Finset.sum_nonneg fun _ _ => abs_nonneg _
    refine ⟨K * (2000 * (1 + Real.sqrt n) * (∑ k ∈ Finset.range n, |(P.norm i).g k|) * ∑ k ∈ Finset.range n, ∑ j ∈ Finset.range m, |(P.layer i).W k j|), by positivity, ?_⟩
    intro x x' d hd h
    have hd1 : 0 ≤ (∑ k ∈ Finset.range n, ∑ j ∈ Finset.range m, |(P.layer i).W k j|) * d := mul_nonneg hB hd
    have c1 : Close n ((∑ k ∈ Finset.range n, ∑ j ∈ Finset.range m, |(P.layer i).W k j|) * d) (fun k => relu (dense (P.layer i) m x k)) (fun k => relu (dense (P.layer i) m x' k)) := by
      intro k hk
      refine (relu_close _ _).trans ((dense_close _ m x x' d h k).trans (mul_le_mul_of_nonneg_right ?_ hd))
      exact Finset.single_le_sum (f := fun k => ∑ j ∈ Finset.range m, |(P.layer i).W k j|) (fun k _ => hA k) (Finset.mem_range.2 hk)
    have c2 : Close n (2000 * (1 + Real.sqrt n) * (∑ k ∈ Finset.range n, |(P.norm i).g k|) * ((∑ k ∈ Finset.range n, ∑ j ∈ Finset.range m, |(P.layer i).W k j|) * d))
        ((P.norm i).apply n (fun k => relu (dense (P.layer i) m x k))) ((P.norm i).apply n (fun k => relu (dense (P.layer i) m x' k))) := by
      intro k hk
      refine (norm_close _ n _ _ _ hd1 c1 k hk).trans (mul_le_mul_of_nonneg_right (mul_le_mul_of_nonneg_left ?_ (by positivity)) hd1)
      exact Finset.single_le_sum (f := fun k => |(P.norm i).g k|) (fun k _ => abs_nonneg _) (Finset.mem_range.2 hk)
    have := ihK _ _ _ (by positivity) c2
    have hl : (n :: ns).getLastD m = ns.getLastD n := by cases ns <;> rfl
    rw [hl]
    intro j hj
    refine (this j hj).trans (le_of_eq ?_)
    ring

theorem closeL_map (n : ℕ) (f f' : ℕ → ℝ) (K : ℕ → ℝ) (hK : ∀ k, 0 ≤ K k) (d : ℝ) (hd : 0 ≤ d) (h : ∀ k, |f k - f' k| ≤ K k * d) :
    CloseL ((∑ k ∈ Finset.range n, K k) * d) ((List.range n).map f) ((List.range n).map f') := by
  unfold CloseL
  rw [List.forall₂_map_left_iff, List.forall₂_map_right_iff, List.forall₂_same]
  intro k hk
  refine (h k).trans (mul_le_mul_of_nonneg_right ?_ hd)
  exact Finset.single_le_sum (fun k _ => hK k) (Finset.mem_range.2 (List.mem_range.1 hk))

theorem lastLayer_close (c : Config) (P : Params) (i m w nLast : ℕ) : ∃ K : ℝ, 0 ≤ K ∧ ∀ (x x' : ℕ → ℝ) (d : ℝ), 0 ≤ d → Close m d x x' →
    CloseL (K * d) (lastLayer c P i m w nLast x) (lastLayer c P i m w nLast x') := by
  unfold lastLayer
  cases c.split with
  | false =>
    simp only [Bool.false_eq_true, if_false]
    refine ⟨_, Finset.sum_nonneg fun k _ => Finset.sum_nonneg fun j _ => abs_nonneg _, fun x x' d hd h => closeL_map nLast _ _ (fun k => ∑ j ∈ Finset.range m, |(P.layer i).W k j|) (fun k => Finset.sum_nonneg fun j _ => abs_nonneg _) d hd ?_⟩
    exact fun k => dense_close _ m x x' d h k
  | true =>
    simp only [if_true]
    have hI : ∀ k, 0 ≤ ∑ j ∈ Finset.range w, ∑ l ∈ Finset.range m, |(P.subIn k).W j l| := fun k => Finset.sum_nonneg fun j _ => Finset.sum_nonneg fun l _ => abs_nonneg _
    have hO : ∀ k, 0 ≤ ∑ j ∈ Finset.range w, |(P.subOut k).W 0 j| := fun k => Finset.sum_nonneg fun j _ => abs_nonneg _
    have hIO : ∀ k, 0 ≤ (∑ j ∈ Finset.range w, |(P.subOut k).W 0 j|) * ∑ j ∈ Finset.range w, ∑ l ∈ Finset.range m, |(P.subIn k).W j l| := fun k => mul_nonneg (hO k) (hI k)
    refine ⟨_, Finset.sum_nonneg fun k _ => hIO k, fun x x' d hd h => closeL_map (c.nOut.getD nLast) _ _ _ hIO d hd ?_⟩
    intro k
    have c1 : Close w ((∑ j ∈ Finset.range w, ∑ l ∈ Finset.range m, |(P.subIn k).W j l|) * d) (fun j => relu (dense (P.subIn k) m x j)) (fun j => relu (dense (P.subIn k) m x' j)) := by
      intro j hj
      refine (relu_close _ _).trans ((dense_close _ m x x' d h j).trans (mul_le_mul_of_nonneg_right ?_ hd))
      exact Finset.single_le_sum (f := fun j => ∑ l ∈ Finset.range m, |(P.subIn k).W j l|) (fun j _ => Finset.sum_nonneg fun l _ => abs_nonneg _) (Finset.mem_range.2 hj)
    rw [mul_assoc]
    exact dense_close _ w _ _ _ c1 0

theorem closeL_mono {d e : ℝ} (h : d ≤ e) {a a' : List ℝ} (hc : CloseL d a a') : CloseL e a a' :=
  List.Forall₂.imp (fun _ _ h' => h'.trans h) hc

theorem closeL_head {d : ℝ} (hd : 0 ≤ d) {a a' : List ℝ} (h : CloseL d a a') : |a.headD 0 - a'.headD 0| ≤ d := by
  cases h with
  | nil => simpa using hd
  | cons h _ => exact h

theorem addVec_close {d e : ℝ} (hd : 0 ≤ d) (he : 0 ≤ e) {a a' b b' y : List ℝ} (h1 : CloseL d a a') (h2 : CloseL e b b') (hy : addVec a b = .ok y) :
    ∃ y', addVec a' b' = .ok y' ∧ CloseL (d + e) y y' := by
  have l1 : a.length = a'.length := List.Forall₂.length_eq h1
  have l2 : b.length = b'.length := List.Forall₂.length_eq h2
  have add : ∀ p q p' q' : ℝ, |p - p'| ≤ d → |q - q'| ≤ e → |p + q - (p' + q')| ≤ d + e := fun p q p' q' hp hq => by
    rw [add_sub_add_comm]; exact (abs_add_le _ _).trans (add_le_add hp hq)
  unfold addVec at hy ⊢
  rw [← l1, ← l2]
  split_ifs at hy ⊢ with c1 c2 c3
  · obtain rfl := Except.ok.inj hy
    refine ⟨_, rfl, ?_⟩
    clear hy l1 l2
    induction h1 generalizing b b' with
    | nil => exact List.Forall₂.nil
    | cons hp _ ih =>
      cases h2 with
      | nil => exact List.Forall₂.nil
      | cons hq h2 => exact List.Forall₂.cons (add _ _ _ _ hp hq) (ih h2 (by simpa using c1))
  · obtain rfl := Except.ok.inj hy
    refine ⟨_, rfl, ?_⟩
    have hh := closeL_head he h2
    unfold CloseL
    rw [List.forall₂_map_left_iff, List.forall₂_map_right_iff]
    exact List.Forall₂.imp (fun p p' hp => add _ _ _ _ hp hh) h1
  · obtain rfl := Except.ok.inj hy
    refine ⟨_, rfl, ?_⟩
    have hh := closeL_head hd h1
    unfold CloseL
    rw [List.forall₂_map_left_iff, List.forall₂_map_right_iff]
    exact List.Forall₂.imp (fun q q' hq => add _ _ _ _ hh hq) h2

theorem closeL_getD {d : ℝ} (hd : 0 ≤ d) {a a' : List ℝ} (h : CloseL d a a') (j : ℕ) : |a.getD j 0 - a'.getD j 0| ≤ d := by
  induction h generalizing j with
  | nil => simpa using hd
  | cons hp _ ih =>
    cases j with
    | zero => exact hp
    | succ j => exact ih j

theorem selected_close {d : ℝ} (hd : 0 ≤ d) {row row' : List ℝ} (h : CloseL d row row') (s : List ℕ) :
    CloseL d (s.map (fun k => row.getD k 0)) (s.map (fun k => row'.getD k 0)) := by
  unfold CloseL
  rw [List.forall₂_map_left_iff, List.forall₂_map_right_iff, List.forall₂_same]
  exact fun k _ => closeL_getD hd h k

/-- C304 (sensitivity): for every network and number of features there is a factor `K`: if no feature changes by more than `d`, no forecast changes by more than `K d`; and a row that can be forecast stays so. -/
theorem C304_lipschitz (c : Config) (P : Params) (m : ℕ) : ∃ K : ℝ, 0 ≤ K ∧ ∀ (row row' y : List ℝ) (d : ℝ), 0 ≤ d → row.length = m →
    List.Forall₂ (fun p q => |p - q| ≤ d) row row' → forward c P row = .ok y →
    ∃ y', forward c P row' = .ok y' ∧ List.Forall₂ (fun p q => |p - q| ≤ K * d) y y' := by
  unfold forward
  cases hs : sizes c with
  | error e => exact ⟨0, le_rfl, fun row row' y d _ _ _ hy => by simp at hy⟩
  | ok ls =>
    simp only
    cases hl : ls.getLast? with
    | none =>
      simp only
      cases hsel : c.selector with
      | some s =>
        refine ⟨2, by norm_num, fun row row' y d hd _ h hy => ?_⟩
        obtain ⟨y', e1, e2⟩ := addVec_close hd hd h (selected_close hd h s) hy
        exact ⟨y', e1, closeL_mono (by linarith) e2⟩
      | none =>
        cases c.skip with
        | true => exact ⟨0, le_rfl, fun row row' y d _ _ _ hy => by simp at hy⟩
        | false =>
          refine ⟨1, by norm_num, fun row row' y d hd _ h hy => ?_⟩
          simp only [Bool.false_eq_true, if_false] at hy ⊢
          obtain rfl := Except.ok.inj hy
          exact ⟨row', rfl, closeL_mono (by linarith) h⟩
    | some nLast =>
      simp only
      obtain ⟨K1, h1, hh⟩ := hidden_close P ls.dropLast 0 m
      obtain ⟨K2, h2, hL⟩ := lastLayer_close c P (ls.length - 1) (ls.dropLast.getLastD m) (ls.dropLast.getLastD nLast) nLast
      have hS : 0 ≤ ∑ k ∈ Finset.range nLast, ∑ j ∈ Finset.range m, |P.skip.W k j| := Finset.sum_nonneg fun k _ => Finset.sum_nonneg fun j _ => abs_nonneg _
      refine ⟨K2 * K1 + (1 + ∑ k ∈ Finset.range nLast, ∑ j ∈ Finset.range m, |P.skip.W k j|), by positivity, fun row row' y d hd hm h hy => ?_⟩
      have hm' : row'.length = m := by rw [← List.Forall₂.length_eq h]; exact hm
      have hrow : Close m d (fun j => row.getD j 0) (fun j => row'.getD j 0) := fun j _ => closeL_getD hd h j
      have hout := hL _ _ _ (mul_nonneg h1 hd) (hh _ _ d hd hrow)
      rw [hidden_len, hm] at hy
      rw [hidden_len, hm']
      have hK : K2 * (K1 * d) ≤ (K2 * K1 + (1 + ∑ k ∈ Finset.range nLast, ∑ j ∈ Finset.range m, |P.skip.W k j|)) * d := by nlinarith [mul_nonneg hS hd]
      unfold shortcut at hy ⊢
      cases hsel : c.selector with
      | some s =>
        rw [hsel] at hy
        simp only at hy ⊢
        obtain ⟨y', e1, e2⟩ := addVec_close (by positivity) hd hout (selected_close hd h s) hy
        exact ⟨y', e1, closeL_mono (by nlinarith [mul_nonneg hS hd]) e2⟩
      | none =>
        rw [hsel] at hy
        simp only at hy ⊢
        cases hskip : c.skip with
        | false =>
          rw [hskip] at hy
          simp only [Bool.false_eq_true, if_false] at hy ⊢
          obtain rfl := Except.ok.inj hy
          exact ⟨_, rfl, closeL_mono hK hout⟩
        | true =>
          rw [hskip] at hy
          simp only [if_true, hm, hm'] at hy ⊢
          obtain ⟨y', e1, e2⟩ := addVec_close (by positivity) (mul_nonneg hS hd) hout (closeL_map nLast _ _ (fun k => ∑ j ∈ Finset.range m, |P.skip.W k j|) (fun k => Finset.sum_nonneg fun j _ => abs_nonneg _) d hd (fun k => dense_close P.skip m _ _ d hrow k)) hy
          exact ⟨y', e1, closeL_mono (by nlinarith) e2⟩

end PyF.FfNet
