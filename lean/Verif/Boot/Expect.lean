import Verif.Boot.Props
import Verif.Boot.ExpectSpec
import Mathlib.Data.Fintype.BigOperators
import Mathlib.Algebra.BigOperators.Ring.Finset
import Mathlib.Algebra.BigOperators.Field
import Mathlib.Algebra.BigOperators.Fin
import Mathlib.Tactic.Ring
import Mathlib.Tactic.FieldSimp
import Mathlib.Tactic.LinearCombination

/-! C307: what the bootstrap estimates, on average over its draws. -/

namespace PyF.Boot
open PyF

variable {α : Type} [Fintype α]

theorem avg_add (g h : α → ℚ) : avg (fun a => g a + h a) = avg g + avg h := by
  unfold avg; rw [Finset.sum_add_distrib, add_div]

theorem avg_sub (g h : α → ℚ) : avg (fun a => g a - h a) = avg g - avg h := by
  unfold avg; rw [Finset.sum_sub_distrib, sub_div]

theorem avg_mul (c : ℚ) (g : α → ℚ) : avg (fun a => c * g a) = c * avg g := by
  unfold avg; rw [← Finset.mul_sum, mul_div_assoc]

theorem avg_const [Nonempty α] (c : ℚ) : avg (fun _ : α => c) = c := by
  unfold avg
  have : (Fintype.card α : ℚ) ≠ 0 := by exact_mod_cast Fintype.card_ne_zero
  rw [Finset.sum_const, Finset.card_univ, nsmul_eq_mul]
  field_simp

theorem avg_sum {ι : Type} (s : Finset ι) (g : ι → α → ℚ) : avg (fun a => ∑ i ∈ s, g i a) = ∑ i ∈ s, avg (g i) := by
  unfold avg; rw [Finset.sum_comm, Finset.sum_div]

theorem avg_pi {N : Nat} (f : Fin N → α → ℚ) : avg (fun ω : Fin N → α => ∏ i, f i (ω i)) = ∏ i, avg (f i) := by
  unfold avg
  rw [Finset.prod_div_distrib, Finset.prod_univ_sum, Fintype.piFinset_univ, Finset.prod_const, Finset.card_univ, Fintype.card_fun, Fintype.card_fin]
  push_cast
  rfl

theorem avg_one [Nonempty α] {N : Nat} (c : Fin N) (g : α → ℚ) : avg (fun ω : Fin N → α => g (ω c)) = avg g := by
  have h := avg_pi (fun (i : Fin N) (a : α) => if i = c then g a else 1)
  simp only [Finset.prod_ite_eq', Finset.mem_univ, if_true] at h
  rw [h, Finset.prod_eq_single c]
  · simp
  · intro i _ hi
    simp only [hi, if_false]
    exact avg_const 1
  · simp

theorem avg_two [Nonempty α] {N : Nat} (c d : Fin N) (hcd : c ≠ d) (g h : α → ℚ) : avg (fun ω : Fin N → α => g (ω c) * h (ω d)) = avg g * avg h := by
  have e := avg_pi (fun (i : Fin N) (a : α) => (if i = c then g a else 1) * (if i = d then h a else 1))
  simp only [Finset.prod_mul_distrib, Finset.prod_ite_eq', Finset.mem_univ, if_true] at e
  rw [e]
  have : ∀ i : Fin N, avg (fun a => (if i = c then g a else 1) * (if i = d then h a else 1)) = (if i = c then avg g else 1) * (if i = d then avg h else 1) := by
    intro i
    by_cases hc : i = c
    · subst hc
      simp [hcd]
    · by_cases hd : i = d
      · simp [hc, hd, Ne.symm hcd]
      · simp only [hc, hd, if_false, mul_one]
        exact avg_const 1
  simp only [this, Finset.prod_mul_distrib, Finset.prod_ite_eq', Finset.mem_univ, if_true]

/-- The average of the square of a sum of independent draws. -/
theorem avg_sq_sum [Nonempty α] {N : Nat} (s : Finset (Fin N)) (g : α → ℚ) :
    avg (fun ω : Fin N → α => (∑ i ∈ s, g (ω i)) ^ 2) = s.card * avg (fun a => g a ^ 2) + s.card * (s.card - 1) * avg g ^ 2 := by
  have e : (fun ω : Fin N → α => (∑ i ∈ s, g (ω i)) ^ 2) = fun ω => ∑ i ∈ s, ∑ j ∈ s, g (ω i) * g (ω j) := by
    funext ω
    rw [sq, Finset.sum_mul_sum]
  rw [e, avg_sum]
  have h1 : ∀ i ∈ s, avg (fun ω : Fin N → α => ∑ j ∈ s, g (ω i) * g (ω j)) = avg (fun a => g a ^ 2) + ((s.card : ℚ) - 1) * avg g ^ 2 := by
    intro i hi
    rw [avg_sum, ← Finset.add_sum_erase s _ hi]
    have h2 : avg (fun ω : Fin N → α => g (ω i) * g (ω i)) = avg (fun a => g a ^ 2) := by
      rw [avg_one i (fun a => g a * g a)]
      simp only [sq]
    rw [h2]
    congr 1
    rw [Finset.sum_congr rfl (fun j hj => avg_two i j (Finset.ne_of_mem_erase hj).symm g g), Finset.sum_const, Finset.card_erase_of_mem hi, nsmul_eq_mul,
      Nat.cast_sub (Finset.card_pos.mpr ⟨i, hi⟩)]
    push_cast
    ring
  rw [Finset.sum_congr rfl h1, Finset.sum_const, nsmul_eq_mul]
  ring

theorem sum_take_ofFn {N : Nat} (x : Fin N → ℚ) (m : Nat) : ((List.ofFn x).take m).sum = ∑ i ∈ Finset.univ.filter (fun i : Fin N => i.val < m), x i := by
  induction N generalizing m with
  | zero => simp
  | succ N ih =>
    cases m with
    | zero => simp
    | succ m =>
      rw [List.ofFn_succ, List.take_succ_cons, List.sum_cons, ih, Finset.sum_filter, Finset.sum_filter, Fin.sum_univ_succ]
      simp

theorem card_lt {N m : Nat} (h : m ≤ N) : (Finset.univ.filter (fun i : Fin N => i.val < m)).card = m := by
  rw [Fin.card_filter_val_lt]
  omega

/-- C307 (general): over all equally likely draws, the first result of `bootstrap` is on average the average of the statistic over all resamples, and the square of the second `1 - 1/m`
times the variance of the statistic over all resamples, `m` being the number of resamples used. -/
theorem C307_expectation (labels : List Nat) (hn : labels.Nodup) (hne : labels ≠ []) (val : Nat → ℚ) (f : List ℚ → ℚ) (N m : Nat) (hm : IsLast N m) :
    ∃ r : (Fin N → Fin labels.length → Fin labels.length) → ℚ × ℚ,
      (∀ ω, bootstrap (labels.map (fun (k : Nat) => (k, val k))) f (draws labels ω) N = .ok (r ω)) ∧
      avg (fun ω => (r ω).1) = avg (fun s : Fin labels.length → Fin labels.length => f (List.ofFn (fun j => val (labels.get (s j))))) ∧
      avg (fun ω => (r ω).2) = (1 - 1 / m) * avg (fun s : Fin labels.length → Fin labels.length => (f (List.ofFn (fun j => val (labels.get (s j)))) -
        avg (fun s : Fin labels.length → Fin labels.length => f (List.ofFn (fun j => val (labels.get (s j)))))) ^ 2) := by
  have hpos : 0 < labels.length := List.length_pos_iff.mpr hne
  haveI : Nonempty (Fin labels.length) := ⟨⟨0, hpos⟩⟩
  have hmN : m ≤ N := by unfold IsLast at hm; omega
  have hm0 : (m : ℚ) ≠ 0 := by have : 0 < m := by unfold IsLast at hm; omega
                               exact_mod_cast this.ne'
  have hall := fun ω : Fin N → Fin labels.length → Fin labels.length => C176_value labels hn val f (draws labels ω) N m (by simp [draws]) (by
    intro s hs l hl
    unfold draws at hs
    rw [List.mem_ofFn] at hs
    obtain ⟨i, rfl⟩ := hs
    rw [List.mem_ofFn] at hl
    obtain ⟨j, rfl⟩ := hl
    exact List.get_mem _ _) hm
  choose r hr h1 h2 using hall
  set F : (Fin labels.length → Fin labels.length) → ℚ := fun s => f (List.ofFn (fun j => val (labels.get (s j)))) with hF
  set S := Finset.univ.filter (fun i : Fin N => i.val < m) with hS
  have hcard : (S.card : ℚ) = m := by rw [hS, card_lt hmN]
  have key : ∀ (ω : Fin N → Fin labels.length → Fin labels.length) (G : ℚ → ℚ),
      (((draws labels ω).take m).map (fun s => G (f (s.map val)))).sum = ∑ i ∈ S, G (F (ω i)) := by
    intro ω G
    rw [hS, ← sum_take_ofFn (fun i => G (F (ω i))) m, List.map_take]
    unfold draws
    rw [List.map_ofFn]
    have : ((fun s => G (f (List.map val s))) ∘ fun i => List.ofFn fun j => labels.get (ω i j)) = fun i => G (F (ω i)) := by
      funext i
      rw [hF, Function.comp_apply, List.map_ofFn]
      rfl
    rw [this]
  have h1' : ∀ ω, (r ω).1 * m = ∑ i ∈ S, F (ω i) := fun ω => (h1 ω).trans (key ω (fun z => z))
  have h2' : ∀ ω, (r ω).2 * m = ∑ i ∈ S, (F (ω i) - (r ω).1) ^ 2 := fun ω => (h2 ω).trans (key ω (fun z => (z - (r ω).1) ^ 2))
  have e1 : (fun ω => (r ω).1) = fun ω => (1 / (m : ℚ)) * ∑ i ∈ S, F (ω i) := by
    funext ω
    rw [← h1' ω]
    field_simp
  have e2 : (fun ω => (r ω).2) = fun ω => (1 / (m : ℚ)) * ∑ i ∈ S, F (ω i) ^ 2 - (1 / (m : ℚ) ^ 2) * (∑ i ∈ S, F (ω i)) ^ 2 := by
    funext ω
    have q : (r ω).2 * m = ∑ i ∈ S, F (ω i) ^ 2 - 2 * (r ω).1 * ∑ i ∈ S, F (ω i) + m * (r ω).1 ^ 2 := by
      rw [h2' ω, ← hcard, Finset.mul_sum, ← nsmul_eq_mul, ← Finset.sum_const, ← Finset.sum_sub_distrib, ← Finset.sum_add_distrib]
      refine Finset.sum_congr rfl fun i _ => ?_
      ring
    rw [← h1' ω] at q ⊢
    field_simp
    linear_combination q
  have a1 : avg (fun ω => (r ω).1) = avg F := by
    rw [e1, avg_mul, avg_sum, Finset.sum_congr rfl (fun i _ => avg_one i F), Finset.sum_const, nsmul_eq_mul, hcard]
    field_simp
  refine ⟨r, hr, a1, ?_⟩
  have hv : avg (fun s => (F s - avg F) ^ 2) = avg (fun s => F s ^ 2) - avg F ^ 2 := by
    have : (fun s => (F s - avg F) ^ 2) = fun s => (F s ^ 2 - (2 * avg F) * F s) + avg F ^ 2 := by funext s; ring
    rw [this, avg_add, avg_sub, avg_mul, avg_const]
    ring
  rw [hv, e2, avg_sub, avg_mul, avg_mul, avg_sum, Finset.sum_congr rfl (fun i _ => avg_one i (fun s => F s ^ 2)), avg_sq_sum, Finset.sum_const, nsmul_eq_mul, hcard]
  field_simp
  ring

/-- C307 (mean): for the mean, the first result is on average the mean of the series, and the square of the second `1 - 1/m` times the population variance of the series over its length. -/
theorem C307_mean (labels : List Nat) (hn : labels.Nodup) (hne : labels ≠ []) (val : Nat → ℚ) (N m : Nat) (hm : IsLast N m) :
    ∃ r : (Fin N → Fin labels.length → Fin labels.length) → ℚ × ℚ,
      (∀ ω, bootstrap (labels.map (fun (k : Nat) => (k, val k))) (fun l => l.sum / l.length) (draws labels ω) N = .ok (r ω)) ∧
      avg (fun ω => (r ω).1) = avg (fun k : Fin labels.length => val (labels.get k)) ∧
      avg (fun ω => (r ω).2) = (1 - 1 / m) * (avg (fun k : Fin labels.length => (val (labels.get k) - avg (fun k : Fin labels.length => val (labels.get k))) ^ 2) / labels.length) := by
  obtain ⟨r, hr, h1, h2⟩ := C307_expectation labels hn hne val (fun l => l.sum / l.length) N m hm
  have hpos : 0 < labels.length := List.length_pos_iff.mpr hne
  haveI : Nonempty (Fin labels.length) := ⟨⟨0, hpos⟩⟩
  have hl0 : (labels.length : ℚ) ≠ 0 := by exact_mod_cast hpos.ne'
  set v : Fin labels.length → ℚ := fun k => val (labels.get k) with hv
  have eF : (fun s : Fin labels.length → Fin labels.length => (List.ofFn (fun j => val (labels.get (s j)))).sum / ((List.ofFn (fun j => val (labels.get (s j)))).length : ℚ))
      = fun s => (1 / (labels.length : ℚ)) * ∑ j, v (s j) := by
    funext s
    rw [List.sum_ofFn, List.length_ofFn]
    ring
  have aF : avg (fun s : Fin labels.length → Fin labels.length => (1 / (labels.length : ℚ)) * ∑ j, v (s j)) = avg v := by
    rw [avg_mul, avg_sum, Finset.sum_congr rfl (fun j _ => avg_one j v), Finset.sum_const, nsmul_eq_mul, Finset.card_univ, Fintype.card_fin]
    field_simp
  refine ⟨r, hr, ?_, ?_⟩
  · rw [h1, eF, aF]
  · rw [h2, eF, aF]
    have e3 : (fun s : Fin labels.length → Fin labels.length =>
        ((List.ofFn (fun j => val (labels.get (s j)))).sum / ((List.ofFn (fun j => val (labels.get (s j)))).length : ℚ) - avg v) ^ 2)
        = fun s => (1 / (labels.length : ℚ) ^ 2) * (∑ j, v (s j)) ^ 2 - (2 * avg v) * ((1 / (labels.length : ℚ)) * ∑ j, v (s j)) + avg v ^ 2 := by
      funext s
      rw [congrFun eF s]
      ring
    have e4 : (fun k => (v k - avg v) ^ 2) = fun k => (v k ^ 2 - (2 * avg v) * v k) + avg v ^ 2 := by funext k; ring
    rw [e3, e4, avg_add, avg_sub, avg_add, avg_sub, avg_mul, avg_mul _ (fun s : Fin labels.length → Fin labels.length => (1 / (labels.length : ℚ)) * ∑ j, v (s j)), aF, avg_sq_sum, avg_mul,
      avg_const, avg_const, Finset.card_univ, Fintype.card_fin]
    field_simp
    ring

end PyF.Boot
