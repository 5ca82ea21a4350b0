import Verif.Utils.Freq
import Mathlib.RingTheory.RootsOfUnity.Complex
import Mathlib.Data.List.Sort
import Mathlib.Data.List.Range

/-! C164 important frequencies. -/

namespace PyF.Utils
open PyF

theorem pickTop_mem (p : List Nat) (nMax : Nat) (f : Nat) : f ∈ pickTop p nMax ↔ ∃ i ∈ p.reverse.take nMax, i + 1 = f := by
  unfold pickTop
  rw [List.mem_map]
  constructor
  · rintro ⟨i, hi, rfl⟩
    exact ⟨i, (List.perm_insertionSort (· ≤ ·) _).mem_iff.mp hi, rfl⟩
  · rintro ⟨i, hi, rfl⟩
    exact ⟨i, (List.perm_insertionSort (· ≤ ·) _).mem_iff.mpr hi, rfl⟩

/-- C164: the result has `min(n_max, n // 2)` strictly increasing numbers from 1 to `n // 2`. `f` stands for the component with `f - 1` cycles per
window, and no component left out (with fewer than `n // 2` cycles) is stronger than one reported. -/
theorem C164_selection (argsort : List ℝ → List Nat) (hs : ∀ v, ArgSort v (argsort v)) (x : List ℝ) (nMax : Nat) :
    (importantFrequencies argsort x nMax).length = min nMax (x.length / 2) ∧
    (importantFrequencies argsort x nMax).Pairwise (· < ·) ∧
    (∀ f ∈ importantFrequencies argsort x nMax, 1 ≤ f ∧ f ≤ x.length / 2) ∧
    ∀ f ∈ importantFrequencies argsort x nMax, ∀ k, k < x.length / 2 → k + 1 ∉ importantFrequencies argsort x nMax → ‖dft x k‖ ≤ ‖dft x (f - 1)‖ := by
  have hlen : (magSpectrum x).length = x.length / 2 := by simp [magSpectrum]
  obtain ⟨hperm, hsort⟩ := hs (magSpectrum x)
  rw [hlen] at hperm
  have hget : ∀ (k : Nat), k < x.length / 2 → (magSpectrum x).getD k 0 = ‖dft x k‖ := by
    intro k hk
    simp [magSpectrum, List.getD_eq_getElem?_getD, hk]
  set p := argsort (magSpectrum x) with hp
  have hmemp : ∀ i, i ∈ p ↔ i < x.length / 2 := fun i => by rw [hperm.mem_iff, List.mem_range]
  have hnd : p.Nodup := hperm.nodup_iff.mpr List.nodup_range
  have htake : ∀ i ∈ p.reverse.take nMax, i < x.length / 2 := by
    intro i hi
    have := List.mem_of_mem_take hi
    rw [List.mem_reverse, hmemp] at this
    exact this
  refine ⟨?_, ?_, ?_, ?_⟩
  · have : p.length = x.length / 2 := by rw [hperm.length_eq, List.length_range]
    simp [importantFrequencies, pickTop, ← hp, this]
  · unfold importantFrequencies pickTop
    rw [List.pairwise_map, ← hp]
    have h1 : ((p.reverse.take nMax).insertionSort (· ≤ ·)).Pairwise (· ≤ ·) := List.pairwise_insertionSort _ _
    have h2 : ((p.reverse.take nMax).insertionSort (· ≤ ·)).Nodup :=
      (List.perm_insertionSort (· ≤ ·) _).nodup_iff.mpr ((List.nodup_reverse.mpr hnd).sublist (List.take_sublist _ _))
    refine List.Pairwise.imp ?_ (List.Pairwise.and h1 h2)
    rintro a b ⟨hab, hne⟩
    have : a ≠ b := hne
    omega
  · intro f hf
    rw [importantFrequencies, pickTop_mem] at hf
    obtain ⟨i, hi, rfl⟩ := hf
    have := htake i hi
    omega
  · intro f hf k hk hnk
    rw [importantFrequencies, pickTop_mem, ← hp] at hf hnk
    obtain ⟨i, hi, rfl⟩ := hf
    have hi' := htake i hi
    have hkp : k ∈ p.reverse := by rw [List.mem_reverse, hmemp]; exact hk
    rw [← List.take_append_drop nMax p.reverse, List.mem_append] at hkp
    rcases hkp with hkp | hkp
    · exact absurd ⟨k, hkp, rfl⟩ hnk
    · have hrev : p.reverse.Pairwise (fun a b => (magSpectrum x).getD b 0 ≤ (magSpectrum x).getD a 0) := List.pairwise_reverse.mpr hsort
      rw [← List.take_append_drop nMax p.reverse, List.pairwise_append] at hrev
      have := hrev.2.2 i hi k hkp
      rw [hget k hk, hget i hi'] at this
      simpa using this

/-- A tone: amplitude, cycles per window and phase. -/
noncomputable def tone (n : Nat) (A : ℝ) (k : Nat) (φ : ℝ) : List ℝ :=
  (List.range n).map (fun (j : Nat) => A * Real.cos (2 * Real.pi * k * j / n + φ))

/-- Sum of the powers of a root of unity. -/
theorem sum_root (n : Nat) (hn : 0 < n) (m : ℤ) (hm : ¬ (n : ℤ) ∣ m) :
    ∑ j ∈ Finset.range n, Complex.exp (2 * Real.pi * Complex.I * m * j / n) = 0 := by
  have hprim := Complex.isPrimitiveRoot_exp n (by omega)
  have hne : (Complex.exp (2 * Real.pi * Complex.I / n)) ^ m ≠ 1 := by
    intro h
    exact hm ((hprim.zpow_eq_one_iff_dvd m).mp h)
  have hone : ((Complex.exp (2 * Real.pi * Complex.I / n)) ^ m) ^ n = 1 := by
    rw [← zpow_natCast, ← zpow_mul, Int.mul_comm, zpow_mul, zpow_natCast, hprim.pow_eq_one, one_zpow]
  have hterm : ∀ j ∈ Finset.range n, Complex.exp (2 * Real.pi * Complex.I * m * j / n) = ((Complex.exp (2 * Real.pi * Complex.I / n)) ^ m) ^ j := by
    intro j _
    rw [← Complex.exp_int_mul, ← Complex.exp_nat_mul]
    congr 1
    ring
  rw [Finset.sum_congr rfl hterm, geom_sum_eq hne, hone, sub_self, zero_div]

theorem sum_root_zero (n : Nat) : ∑ j ∈ Finset.range n, Complex.exp (2 * Real.pi * Complex.I * ((0 : ℤ) : ℂ) * j / n) = n := by
  simp

/-- The transform of a tone is two sums of powers. -/
theorem dft_tone (n : Nat) (hn : 0 < n) (A : ℝ) (k l : Nat) (φ : ℝ) :
    dft (tone n A k φ) l =
      (A / 2 : ℝ) * (Complex.exp (φ * Complex.I) * ∑ j ∈ Finset.range n, Complex.exp (2 * Real.pi * Complex.I * (((k : ℤ) - l : ℤ) : ℂ) * j / n)
        + Complex.exp (-φ * Complex.I) * ∑ j ∈ Finset.range n, Complex.exp (2 * Real.pi * Complex.I * ((-((k : ℤ) + l) : ℤ) : ℂ) * j / n)) := by
  unfold dft
  have hlen : (tone n A k φ).length = n := by simp [tone]
  rw [hlen, Finset.mul_sum, Finset.mul_sum, ← Finset.sum_add_distrib, Finset.mul_sum]
  apply Finset.sum_congr rfl
  intro j hj
  rw [Finset.mem_range] at hj
  have hg : (tone n A k φ).getD j 0 = A * Real.cos (2 * Real.pi * k * j / n + φ) := by
    simp [tone, List.getD_eq_getElem?_getD, hj]
  rw [hg, Complex.ofReal_mul, Complex.ofReal_cos, Complex.cos]
  push_cast
  have e1 : ∀ a b : ℂ, Complex.exp a * Complex.exp b = Complex.exp (a + b) := fun a b => (Complex.exp_add a b).symm
  rw [e1, e1]
  have hn' : (n : ℂ) ≠ 0 := by exact_mod_cast (by omega : n ≠ 0)
  have a1 : (φ : ℂ) * Complex.I + 2 * Real.pi * Complex.I * (k - l) * j / n = (2 * Real.pi * k * j / n + φ) * Complex.I + -2 * Real.pi * Complex.I * j * l / n := by
    field_simp; ring
  have a2 : -(φ : ℂ) * Complex.I + 2 * Real.pi * Complex.I * (-(k + l)) * j / n = -(2 * Real.pi * k * j / n + φ) * Complex.I + -2 * Real.pi * Complex.I * j * l / n := by
    field_simp; ring
  rw [a1, a2, Complex.exp_add, Complex.exp_add]
  ring

/-- Magnitudes of a tone. -/
theorem norm_dft_tone (n : Nat) (A : ℝ) (hA : 0 < A) (k l : Nat) (φ : ℝ) (hk : 1 ≤ k) (hk2 : 2 * k < n) (hl : 2 * l < n) :
    ‖dft (tone n A k φ) l‖ = if l = k then A * n / 2 else 0 := by
  rw [dft_tone n (by omega)]
  have h2 := sum_root n (by omega) (-((k : ℤ) + l)) (by
    intro h
    have := Int.le_of_dvd (by omega) ((dvd_neg).mp h)
    omega)
  rw [h2, mul_zero, add_zero]
  split
  · rename_i h
    subst h
    have h0 : ((l : ℤ) - l : ℤ) = 0 := sub_self _
    rw [h0, sum_root_zero, norm_mul, norm_mul, Complex.norm_exp_ofReal_mul_I, Complex.norm_real, Complex.norm_natCast, Real.norm_of_nonneg (by positivity)]
    ring
  · rename_i h
    rw [sum_root n (by omega) ((k : ℤ) - l) (by
      intro hd
      have hne : (k : ℤ) - l ≠ 0 := by omega
      have := Int.le_of_dvd (abs_pos.mpr hne) ((dvd_abs _ _).mpr hd)
      have h3 : |(k : ℤ) - l| < n := by rw [abs_lt]; constructor <;> omega
      omega)]
    simp

/-- C164, the defect: for a tone with `k` cycles in the window the most important frequency is `k + 1`, whatever amplitude and phase. -/
theorem C164_off_by_one (argsort : List ℝ → List Nat) (hs : ∀ v, ArgSort v (argsort v)) (n : Nat) (A : ℝ) (hA : 0 < A) (k : Nat) (φ : ℝ)
    (hk : 1 ≤ k) (hk2 : k < n / 2) : importantFrequencies argsort (tone n A k φ) 1 = [k + 1] := by
  have hlen : (tone n A k φ).length = n := by simp [tone]
  obtain ⟨h1, _, h3, h4⟩ := C164_selection argsort hs (tone n A k φ) 1
  rw [hlen] at h1 h3 h4
  rw [min_eq_left (by omega)] at h1
  obtain ⟨f, hf⟩ := List.length_eq_one_iff.mp h1
  rw [hf] at h3 h4 ⊢
  by_contra hne
  have hfk : k + 1 ∉ [f] := by
    intro h
    rw [List.mem_singleton] at h
    exact hne (by rw [h])
  have hr := h3 f (by simp)
  have := h4 f (by simp) k hk2 hfk
  rw [norm_dft_tone n A hA k k φ hk (by omega) (by omega), norm_dft_tone n A hA k (f - 1) φ hk (by omega) (by omega), if_pos rfl, if_neg] at this
  · have hn : (0 : ℝ) < n := by exact_mod_cast (by omega : 0 < n)
    have : 0 < A * n / 2 := by positivity
    linarith
  · intro h
    apply hfk
    rw [List.mem_singleton]
    omega

/-- C164: a constant signal has most important frequency 1. -/
theorem C164_constant (argsort : List ℝ → List Nat) (hs : ∀ v, ArgSort v (argsort v)) (n : Nat) (hn : 2 ≤ n) (c : ℝ) (hc : c ≠ 0) :
    importantFrequencies argsort (List.replicate n c) 1 = [1] := by
  have hd : ∀ l, 2 * l < n → dft (List.replicate n c) l = if l = 0 then (c * n : ℂ) else 0 := by
    intro l hl
    unfold dft
    rw [List.length_replicate]
    have : ∀ j ∈ Finset.range n, (((List.replicate n c).getD j 0 : ℝ) : ℂ) * Complex.exp (-2 * Real.pi * Complex.I * j * l / n) =
        c * Complex.exp (2 * Real.pi * Complex.I * ((-(l : ℤ) : ℤ) : ℂ) * j / n) := by
      intro j hj
      rw [Finset.mem_range] at hj
      have hg : (List.replicate n c).getD j 0 = c := by simp [List.getD_eq_getElem?_getD, hj]
      rw [hg]
      congr 2
      push_cast
      ring
    rw [Finset.sum_congr rfl this, ← Finset.mul_sum]
    split
    · rename_i h0
      subst h0
      have := sum_root_zero n
      simp
    · rename_i h0
      rw [sum_root n (by omega) (-(l : ℤ)) (by
        intro h
        have := Int.le_of_dvd (by omega) ((dvd_neg).mp h)
        omega), mul_zero]
  obtain ⟨h1, _, h3, h4⟩ := C164_selection argsort hs (List.replicate n c) 1
  rw [List.length_replicate] at h1 h3 h4
  rw [min_eq_left (by omega)] at h1
  obtain ⟨f, hf⟩ := List.length_eq_one_iff.mp h1
  rw [hf] at h3 h4 ⊢
  by_contra hne
  have hfk : 0 + 1 ∉ [f] := by
    intro h
    rw [List.mem_singleton] at h
    exact hne (by rw [← h])
  have hr := h3 f (by simp)
  have := h4 f (by simp) 0 (by omega) hfk
  have hf1 : f - 1 ≠ 0 := by
    intro h
    apply hfk
    rw [List.mem_singleton]
    omega
  rw [hd 0 (by omega), hd (f - 1) (by omega), if_pos rfl, if_neg hf1, norm_zero, norm_mul, Complex.norm_real, Complex.norm_natCast] at this
  have hn' : (0 : ℝ) < n := by exact_mod_cast (by omega : 0 < n)
  have hc' : 0 < ‖c‖ := norm_pos_iff.mpr hc
  have : 0 < ‖c‖ * n := by positivity
  linarith

end PyF.Utils
