import Verif.Losses.Lemmas
import Mathlib.Topology.Order.Real
import Mathlib.Topology.MetricSpace.Pseudo.Pi
import Mathlib.Topology.Order.OrderClosed
import Mathlib.Tactic.NormNum

/-! Properties C199-C203. -/

namespace PyF.Losses
open Spec

variable {n : ℕ}

/-- **C199.** With at least two rows the ordering term is a number between -1 and 1, and it is -1 exactly when predicted
and actual objectives put the rows in the same order. -/
theorem C199_range (hn : 2 ≤ n) (hat objs : Fin n → ℝ) :
    ∃ r, monotonicRight hat objs = some r ∧ -1 ≤ r ∧ r ≤ 1 ∧ (r = -1 ↔ SameOrder objs hat) := by
  have hs := spread_pos hn
  refine ⟨_, right_eq hn hat objs, ?_, ?_, ?_⟩
  · have : 0 ≤ (∑ i, (argsort objs i - argsort hat i) ^ 2) / (2 * spread n) :=
      div_nonneg (Finset.sum_nonneg (fun i _ => sq_nonneg _)) (by linarith)
    linarith
  · have a := sum_argsort objs (fun x => (x - (∑ j : Fin n, ((j : ℕ) : ℝ)) / n) ^ 2)
    have b := sum_argsort hat (fun x => (x - (∑ j : Fin n, ((j : ℕ) : ℝ)) / n) ^ 2)
    have hsp : spread n = ∑ i : Fin n, (((i : ℕ) : ℝ) - (∑ j : Fin n, ((j : ℕ) : ℝ)) / n) ^ 2 := rfl
    rw [← hsp] at a b
    set m := (∑ j : Fin n, ((j : ℕ) : ℝ)) / n
    have e : ∑ i, (argsort objs i - argsort hat i) ^ 2 ≤ ∑ i, (2 * (argsort objs i - m) ^ 2 + 2 * (argsort hat i - m) ^ 2) :=
      Finset.sum_le_sum (fun i _ => by nlinarith [sq_nonneg ((argsort objs i - m) + (argsort hat i - m))])
    rw [Finset.sum_add_distrib, ← Finset.mul_sum, ← Finset.mul_sum, a, b] at e
    have : (∑ i, (argsort objs i - argsort hat i) ^ 2) / (2 * spread n) ≤ 2 := by
      rw [div_le_iff₀ (by linarith)]
      linarith
    linarith
  · rw [← sort_eq_iff, ← argsort_inj]
    constructor
    · intro h
      have h0 : (∑ i, (argsort objs i - argsort hat i) ^ 2) / (2 * spread n) = 0 := by linarith
      rw [div_eq_zero_iff, or_iff_left (by linarith),
        Finset.sum_eq_zero_iff_of_nonneg (fun i _ => sq_nonneg _)] at h0
      funext i
      have := h0 i (Finset.mem_univ _)
      rw [pow_eq_zero_iff two_ne_zero] at this
      linarith
    · intro h
      rw [h]
      simp

/-- **C199.** One row: the term, and with it the loss, is NaN. -/
theorem C199_single_row (hn : n ≤ 1) (hat objs : Fin n → ℝ) : monotonicRight hat objs = none := right_single hn hat objs

theorem sort_relabel (v : Fin n → ℝ) (hv : Function.Injective v) (s : Equiv.Perm (Fin n)) :
    Tuple.sort (v ∘ s) = (Tuple.sort v).trans s.symm := by
  symm
  rw [Tuple.eq_sort_iff]
  constructor
  · intro a b hab
    simp only [Function.comp, Equiv.trans_apply, Equiv.apply_symm_apply]
    exact (Tuple.monotone_sort v) hab
  · intro a b hab he
    simp only [Function.comp, Equiv.trans_apply, Equiv.apply_symm_apply] at he
    exact absurd ((Tuple.sort v).injective (hv he)) (ne_of_lt hab)

theorem cast_inj_fin : Function.Injective (fun i : Fin n => ((i : ℕ) : ℝ)) := by
  intro a b h
  have h' : ((a : ℕ) : ℝ) = ((b : ℕ) : ℝ) := h
  exact Fin.ext (by exact_mod_cast h')

theorem sort_cast (p : Equiv.Perm (Fin n)) : Tuple.sort (fun i : Fin n => (((p i : Fin n) : ℕ) : ℝ)) = p.symm := by
  symm
  rw [Tuple.eq_sort_iff]
  constructor
  · intro a b hab
    simp only [Function.comp, Equiv.apply_symm_apply]
    exact_mod_cast hab
  · intro a b hab he
    simp only [Equiv.apply_symm_apply] at he
    exact absurd (cast_inj_fin he) (ne_of_lt hab)

theorem sum_two (f : Fin n → ℝ) (a b : Fin n) (hab : a ≠ b) (h : ∀ i, i ≠ a → i ≠ b → f i = 0) : ∑ i, f i = f a + f b := by
  rw [← Finset.sum_pair hab]
  symm
  apply Finset.sum_subset (Finset.subset_univ _)
  intro i _ hi
  simp only [Finset.mem_insert, Finset.mem_singleton, not_or] at hi
  exact h i hi.1 hi.2

/-- **C199.** The term depends on the order of the rows in the batch: for every batch size of at least three there are
values and an exchange of two rows, made in both vectors alike, that change it. -/
theorem C199_row_order (hn : 3 ≤ n) : ∃ (hat objs : Fin n → ℝ) (a b : Fin n),
    monotonicRight (hat ∘ Equiv.swap a b) (objs ∘ Equiv.swap a b) ≠ monotonicRight hat objs := by
  let f0 : Fin n := ⟨0, by omega⟩
  let f1 : Fin n := ⟨1, by omega⟩
  let f2 : Fin n := ⟨2, by omega⟩
  have h01 : f0 ≠ f1 := by simp [f0, f1]
  have h02 : f0 ≠ f2 := by simp [f0, f2]
  have h12 : f1 ≠ f2 := by simp [f1, f2]
  let p := Equiv.swap f0 f1
  let s := Equiv.swap f1 f2
  let objs : Fin n → ℝ := fun i => (((Equiv.refl (Fin n)) i : Fin n) : ℕ)
  let hat : Fin n → ℝ := fun i => ((p i : Fin n) : ℕ)
  have io : Function.Injective objs := cast_inj_fin
  have ih : Function.Injective hat := fun a b h => p.injective (cast_inj_fin h)
  refine ⟨hat, objs, f1, f2, ?_⟩
  have hs := spread_pos (n := n) (by omega)
  rw [right_eq (by omega), right_eq (by omega)]
  have e1 : ∑ i, (argsort objs i - argsort hat i) ^ 2 = 2 := by
    unfold argsort
    rw [sort_cast (Equiv.refl (Fin n)), sort_cast p]
    rw [sum_two _ f0 f1 h01]
    · simp [p, Equiv.swap_apply_left, Equiv.swap_apply_right, f0, f1]
      norm_num
    · intro i h0 h1
      simp [p, Equiv.swap_apply_of_ne_of_ne h0 h1]
  have e2 : ∑ i, (argsort (objs ∘ s) i - argsort (hat ∘ s) i) ^ 2 = 8 := by
    unfold argsort
    rw [sort_relabel objs io, sort_relabel hat ih, sort_cast (Equiv.refl (Fin n)), sort_cast p]
    rw [sum_two _ f0 f1 h01]
    · simp only [Equiv.trans_apply, p, s, Equiv.symm_swap, Equiv.refl_symm, Equiv.refl_apply,
        Equiv.swap_apply_left, Equiv.swap_apply_right, Equiv.swap_apply_of_ne_of_ne h01 h02]
      simp only [f0, f2]
      norm_num
    · intro i h0 h1
      simp only [Equiv.trans_apply, p, Equiv.symm_swap, Equiv.refl_symm, Equiv.refl_apply,
        Equiv.swap_apply_of_ne_of_ne h0 h1, sub_self]
      norm_num
  change some (-1 + (∑ i, (argsort (objs ∘ s) i - argsort (hat ∘ s) i) ^ 2) / (2 * spread n)) ≠ _
  rw [e1, e2]
  intro h
  have h' := Option.some.inj h
  have : (8 : ℝ) / (2 * spread n) = 2 / (2 * spread n) := by linarith
  rw [div_left_inj' (by linarith)] at this
  norm_num at this

theorem sum_cast (n : ℕ) : ∑ j : Fin n, ((j : ℕ) : ℝ) = n * (n - 1) / 2 := by
  induction n with
  | zero => simp
  | succ k ih =>
    rw [Fin.sum_univ_castSucc]
    simp only [Fin.val_castSucc, ih, Fin.val_last]
    push_cast
    ring

theorem sum_cast_sq (n : ℕ) : ∑ j : Fin n, (((j : ℕ) : ℝ)) ^ 2 = n * (n - 1) * (2 * n - 1) / 6 := by
  induction n with
  | zero => simp
  | succ k ih =>
    rw [Fin.sum_univ_castSucc]
    simp only [Fin.val_castSucc, ih, Fin.val_last]
    push_cast
    ring

theorem spread_eq (hn : 1 ≤ n) : spread n = n * ((n : ℝ) ^ 2 - 1) / 12 := by
  have h1 : (n : ℝ) ≠ 0 := by exact_mod_cast (by omega : n ≠ 0)
  unfold spread
  rw [sum_cast]
  have : ∀ i : Fin n, (((i : ℕ) : ℝ) - n * (n - 1) / 2 / n) ^ 2
      = ((i : ℕ) : ℝ) ^ 2 - (n - 1) * ((i : ℕ) : ℝ) + ((n : ℝ) - 1) ^ 2 / 4 := by
    intro i
    field_simp
    ring
  rw [Finset.sum_congr rfl (fun i _ => this i), Finset.sum_add_distrib, Finset.sum_sub_distrib, ← Finset.mul_sum, sum_cast,
    sum_cast_sq]
  simp
  ring

/-- Sorted rows of the alternating batch. -/
def altFun (q : ℕ) (k : Fin (2 * q)) : Fin (2 * q) :=
  ⟨if (k : ℕ) < q then 2 * q - 1 - 2 * k else 2 * (k - q), by have := k.2; split <;> omega⟩

theorem altFun_inj (q : ℕ) : Function.Injective (altFun q) := by
  intro a b h
  have h' : (if (a : ℕ) < q then 2 * q - 1 - 2 * (a : ℕ) else 2 * ((a : ℕ) - q))
      = (if (b : ℕ) < q then 2 * q - 1 - 2 * (b : ℕ) else 2 * ((b : ℕ) - q)) := congrArg Fin.val h
  apply Fin.ext
  have := a.2
  have := b.2
  split at h' <;> split at h' <;> omega

/-- `altFun` as a permutation. -/
noncomputable def altPerm (q : ℕ) : Equiv.Perm (Fin (2 * q)) :=
  Equiv.ofBijective (altFun q) (Finite.injective_iff_bijective.1 (altFun_inj q))

/-- Objectives growing with the row number on even rows and falling on odd rows. -/
def altObjs (q : ℕ) (i : Fin (2 * q)) : ℝ := if (i : ℕ) % 2 = 0 then ((i : ℕ) : ℝ) else -((i : ℕ) : ℝ)

theorem altObjs_altFun (q : ℕ) (k : Fin (2 * q)) : altObjs q (altFun q k) = if (k : ℕ) < q then 2 * (k : ℝ) + 1 - 2 * q else 2 * (k : ℝ) - 2 * q := by
  unfold altObjs altFun
  have := k.2
  by_cases h : (k : ℕ) < q
  · simp only [h, if_true]
    rw [if_neg (by omega)]
    have : ((2 * q - 1 - 2 * (k : ℕ) : ℕ) : ℝ) = 2 * q - 1 - 2 * k := by
      rw [Nat.cast_sub (by omega), Nat.cast_sub (by omega)]
      push_cast
      ring
    rw [this]
    ring
  · simp only [h, if_false]
    rw [if_pos (by omega)]
    rw [Nat.cast_mul, Nat.cast_sub (by omega)]
    push_cast
    ring

theorem altObjs_lt (q : ℕ) (a b : Fin (2 * q)) (h : a < b) : altObjs q (altFun q a) < altObjs q (altFun q b) := by
  rw [altObjs_altFun, altObjs_altFun]
  have h1 : ((a : ℕ) : ℝ) + 1 ≤ (b : ℕ) := by exact_mod_cast h
  split <;> split <;> rename_i ha hb
  · linarith
  · linarith
  · exact absurd (lt_trans (Fin.lt_def.1 h) hb) ha
  · linarith

theorem sort_alt (q : ℕ) : Tuple.sort (altObjs q) = altPerm q := by
  symm
  rw [Tuple.eq_sort_iff]
  constructor
  · intro a b hab
    rcases lt_or_eq_of_le hab with h | h
    · exact (altObjs_lt q a b h).le
    · rw [h]
  · intro a b hab he
    exact absurd he (ne_of_lt (altObjs_lt q a b hab))

theorem sort_alt_neg (q : ℕ) : Tuple.sort (fun i => -altObjs q i) = Fin.revPerm.trans (altPerm q) := by
  symm
  rw [Tuple.eq_sort_iff]
  have key : ∀ a b : Fin (2 * q), a < b → -altObjs q (altFun q a.rev) < -altObjs q (altFun q b.rev) := by
    intro a b h
    have := altObjs_lt q b.rev a.rev (Fin.rev_lt_rev.2 h)
    linarith
  constructor
  · intro a b hab
    rcases lt_or_eq_of_le hab with h | h
    · exact (key a b h).le
    · rw [h]
  · intro a b hab he
    exact absurd he (ne_of_lt (key a b hab))

/-- **C199.** Predictions that put the rows in exactly the reversed order can score nearly as well as perfect ones: for
every even batch size `2 q` there are objectives whose negation scores `-1 + 6 / (4 q² - 1)`. -/
theorem C199_reversed (q : ℕ) (hq : 1 ≤ q) : ∃ objs : Fin (2 * q) → ℝ, Function.Injective objs ∧
    monotonicRight (fun i => -objs i) objs = some (-1 + 6 / (4 * (q : ℝ) ^ 2 - 1)) := by
  refine ⟨altObjs q, ?_, ?_⟩
  · intro a b h
    obtain ⟨x, rfl⟩ := (altPerm q).surjective a
    obtain ⟨y, rfl⟩ := (altPerm q).surjective b
    rcases lt_trichotomy x y with h1 | h1 | h1
    · exact absurd h (ne_of_lt (altObjs_lt q x y h1))
    · rw [h1]
    · exact absurd h (ne_of_gt (altObjs_lt q y x h1))
  · rw [right_eq (by omega)]
    have e : ∑ i, (argsort (altObjs q) i - argsort (fun i => -altObjs q i) i) ^ 2 = 2 * q := by
      have one : ∀ i : Fin (2 * q), (argsort (altObjs q) i - argsort (fun i => -altObjs q i) i) ^ 2 = 1 := by
        intro i
        unfold argsort
        rw [sort_alt, sort_alt_neg]
        change ((((altFun q i : Fin (2 * q)) : ℕ) : ℝ) - ((altFun q i.rev : Fin (2 * q)) : ℕ)) ^ 2 = 1
        unfold altFun
        have hi := i.2
        simp only [Fin.val_rev]
        by_cases h : (i : ℕ) < q
        · rw [if_pos h, if_neg (by omega)]
          have e1 : 2 * q - 1 - 2 * (i : ℕ) = 2 * (2 * q - ((i : ℕ) + 1) - q) + 1 := by omega
          rw [e1]
          push_cast
          ring
        · rw [if_neg h, if_pos (by omega)]
          have e1 : 2 * q - 1 - 2 * (2 * q - ((i : ℕ) + 1)) = 2 * ((i : ℕ) - q) + 1 := by omega
          rw [e1]
          push_cast
          ring
      rw [Finset.sum_congr rfl (fun i _ => one i)]
      simp
    rw [e, spread_eq (by omega)]
    have hq' : (1 : ℝ) ≤ q := by exact_mod_cast hq
    have h4 : (4 : ℝ) * q ^ 2 - 1 ≠ 0 := by nlinarith
    congr 2
    push_cast
    have h5 : ((2 : ℝ) * q) ^ 2 - 1 ≠ 0 := by nlinarith
    rw [show (4 : ℝ) * q ^ 2 - 1 = (2 * q) ^ 2 - 1 by ring]
    field_simp
    norm_num

/-- **C200.** Around every batch of pairwise different predicted objectives the ordering term is constant: small changes of
the predictions, hence of the parameters, do not change it, and it contributes nothing to the gradient. -/
theorem C200_locally_constant (hat objs : Fin n → ℝ) (hd : Function.Injective hat) :
    ∃ ε > 0, ∀ h : Fin n → ℝ, (∀ i, |h i - hat i| < ε) → monotonicRight h objs = monotonicRight hat objs := by
  have ev : ∀ᶠ h in nhds hat, ∀ i j, hat i < hat j → h i < h j := by
    rw [Filter.eventually_all]
    intro i
    rw [Filter.eventually_all]
    intro j
    by_cases hij : hat i < hat j
    · have : IsOpen {h : Fin n → ℝ | h i < h j} := isOpen_lt (continuous_apply i) (continuous_apply j)
      filter_upwards [this.mem_nhds hij] with h hh _ using hh
    · exact Filter.Eventually.of_forall (fun _ hc => absurd hc hij)
  obtain ⟨ε, he, hb⟩ := Metric.eventually_nhds_iff.1 ev
  refine ⟨ε, he, fun h hh => ?_⟩
  have hlt := hb (y := h) ((dist_pi_lt_iff he).2 (fun i => by rw [Real.dist_eq]; exact hh i))
  have : Tuple.sort h = Tuple.sort hat := by
    rw [sort_eq_iff]
    intro i j
    by_cases hij : i = j
    · subst hij
      simp [Before]
    · rcases lt_or_gt_of_ne (fun hc => hij (hd hc)) with h1 | h1
      · exact ⟨fun _ => Or.inl h1, fun _ => Or.inl (hlt i j h1)⟩
      · have h2 := hlt j i h1
        constructor
        · rintro (h3 | h3)
          · exact absurd h3 (not_lt.2 h2.le)
          · exact absurd h3.1 (ne_of_gt h2)
        · rintro (h3 | h3)
          · exact absurd h3 (not_lt.2 h1.le)
          · exact absurd h3.1 (ne_of_gt h1)
  unfold monotonicRight
  have e : argsort h = argsort hat := (argsort_inj h hat).2 this
  rw [e]

end PyF.Losses
