import Verif.TreeLoss.Props
import Mathlib.Tactic.FieldSimp
import Mathlib.Tactic.Ring

namespace PyF.TreeLoss
open PyF PyF.TreeBuild

variable {n L N T : Nat}

/-- The values of the nodes depend on the step only. -/
def Flat (idx : Fin T → Fin L → Fin n) (v : Fin n → ℚ) (c : Fin T → ℚ) : Prop := ∀ t p, v (idx t p) = c t

theorem flat_weight [NeZero L] {idx : Fin T → Fin L → Fin n} {v : Fin n → ℚ} {c : Fin T → ℚ} (h : Flat idx v c) (scens : Fin T → Fin N → ℚ) (k : Fin N) (p : Fin L) :
    weight idx scens v k p = 1 / L := by
  have hd : ∀ q, dist idx scens v k q = dist idx scens v k p := by
    intro q
    unfold dist
    congr 1
    exact Finset.sum_congr rfl (fun t _ => by rw [h t q, h t p])
  have hn : nearest idx scens v k = dist idx scens v k p := by
    obtain ⟨q, hq⟩ := nearest_attained idx scens v k
    rw [hq, hd q]
  have ht : ties idx scens v k = Finset.univ := by
    unfold ties
    rw [Finset.filter_true_of_mem]
    intro q _
    rw [hn, hd q]
  unfold weight
  rw [ht, if_pos (Finset.mem_univ p)]
  simp

/-- The gradient at a flat tree. -/
theorem flat_grad [NeZero L] {idx : Fin T → Fin L → Fin n} {v : Fin n → ℚ} {c : Fin T → ℚ} (h : Flat idx v c) (h1 : OneStep idx) (scens : Fin T → Fin N → ℚ) (t0 : Fin T) (p0 : Fin L) :
    gradLoss idx scens v (idx t0 p0) = ((Finset.univ.filter (fun q => idx t0 q = idx t0 p0)).card : ℚ) / L * ∑ k, 2 * (c t0 - scens t0 k) / T := by
  rw [grad_eq, Finset.mul_sum]
  refine Finset.sum_congr rfl (fun k _ => ?_)
  rw [Finset.sum_eq_single t0]
  · rw [h t0 p0]
    congr 1
    unfold share
    simp only [flat_weight h]
    rw [← Finset.sum_filter, Finset.sum_const, nsmul_eq_mul, mul_one_div]
  · intro t _ ht
    rw [share_zero scens v h1 ht, zero_mul]
  · intro h0
    exact absurd (Finset.mem_univ t0) h0

/-- C237: a `DiffTree` whose initial values depend on the step only — all zero, for instance — on a tree in which the nodes of every step lie on equally many paths (as in the quantile base
tree, or with the same number of nodes at all steps but the first) never branches: all paths stay equal throughout the training, and every step only approaches or leaves the mean
of the scenarios by a fixed factor. The tree returned is not closer to the scenarios than the single path of their means. -/
theorem C237_never_branches [NeZero L] (idx : Nat → Fin L → Fin n) (scens : Fin T → Fin N → ℚ) (base init : Fin n → ℚ) (c : Fin T → ℚ) (lr : Option ℚ) (ev kMax : Nat) (tol : ℚ) (hev : 1 ≤ ev)
    (hT : 0 < T) (hN : 0 < N) (h1 : ∀ (t : Fin T) p (t' : Fin T) p', idx t p = idx t' p' → t = t')
    (hbal : ∀ (t : Fin T) p p', (Finset.univ.filter (fun q => idx t q = idx t p)).card = (Finset.univ.filter (fun q => idx t q = idx t p')).card)
    (hinit : ∀ (t : Fin T) p, init (idx t p) = c t) :
    ∃ out j, diffTree (metricLoss (fun t : Fin T => idx t) scens) (gradLoss (fun t : Fin T => idx t) scens) idx base init lr N ev kMax tol = .ok out ∧ j ≤ kMax ∧
      (∀ (t : Fin T) p p', out.vals (idx t p) = out.vals (idx t p')) ∧
      (∀ (t : Fin T) p, out.vals (idx t p) - (∑ k, scens t k) / N =
        (1 - 2 * out.lr * N * (((Finset.univ.filter (fun q => idx t q = idx t p)).card : ℚ) / L) / T) ^ j * (c t - (∑ k, scens t k) / N)) ∧
      ∑ k, (∑ t, (scens t k - (∑ k', scens t k') / N) ^ 2) / T ≤ metricLoss (fun t : Fin T => idx t) scens out.vals := by
  obtain ⟨out, h2, _, _, ⟨j, hj, h5⟩, _⟩ := C99_no_decay_and_stale_scenarios (metricLoss (fun t : Fin T => idx t) scens) (gradLoss (fun t : Fin T => idx t) scens) idx base init lr N ev kMax tol hev
  have hT' : (T : ℚ) ≠ 0 := by exact_mod_cast hT.ne'
  have hN' : (N : ℚ) ≠ 0 := by exact_mod_cast hN.ne'
  let p0 : Fin L := ⟨0, Nat.pos_of_ne_zero (NeZero.ne L)⟩
  let sh : Fin T → ℚ := fun t => ((Finset.univ.filter (fun q => idx t q = idx t p0)).card : ℚ) / L
  have key : ∀ j, Flat (fun t : Fin T => idx t) (descend (gradLoss (fun t : Fin T => idx t) scens) out.lr init j)
      (fun t => (∑ k, scens t k) / N + (1 - 2 * out.lr * N * sh t / T) ^ j * (c t - (∑ k, scens t k) / N)) := by
    intro j
    induction j with
    | zero => intro t p; simp only [descend]; rw [hinit t p]; ring
    | succ j ih =>
      intro t p
      simp only [descend]
      rw [flat_grad ih h1 scens t p, ih t p]
      have hb : ((Finset.univ.filter (fun q => idx t q = idx t p)).card : ℚ) / L = sh t := by
        simp only [sh]
        rw [hbal t p p0]
      rw [hb]
      have hs : ∑ k, 2 * ((∑ k, scens t k) / N + (1 - 2 * out.lr * N * sh t / T) ^ j * (c t - (∑ k, scens t k) / N) - scens t k) / (T : ℚ) =
          2 * N * ((1 - 2 * out.lr * N * sh t / T) ^ j * (c t - (∑ k, scens t k) / N)) / T := by
        rw [← Finset.sum_div, ← Finset.mul_sum, Finset.sum_sub_distrib, Finset.sum_const, Finset.card_univ, Fintype.card_fin, nsmul_eq_mul]
        field_simp
        ring
      rw [hs, pow_succ]
      ring
  have hfl := key j
  rw [← h5] at hfl
  refine ⟨out, j, h2, hj, fun t p p' => by rw [hfl t p, hfl t p'], ?_, ?_⟩
  · intro t p
    rw [hfl t p, hbal t p p0]
    simp only [sh]
    ring
  · have hd : ∀ k, nearest (fun t : Fin T => idx t) scens out.vals k =
        (∑ t, (scens t k - ((∑ k, scens t k) / N + (1 - 2 * out.lr * N * sh t / T) ^ j * (c t - (∑ k, scens t k) / N))) ^ 2) / T := by
      intro k
      obtain ⟨q, hq⟩ := nearest_attained (fun t : Fin T => idx t) scens out.vals k
      rw [hq]
      unfold dist
      congr 1
      exact Finset.sum_congr rfl (fun t _ => by rw [hfl t q])
    unfold metricLoss
    simp only [hd]
    rw [← Finset.sum_div, ← Finset.sum_div]
    refine div_le_div_of_nonneg_right ?_ (Nat.cast_nonneg T)
    rw [Finset.sum_comm, Finset.sum_comm (s := Finset.univ (α := Fin N))]
    refine Finset.sum_le_sum (fun t _ => ?_)
    set μ : ℚ := (∑ k, scens t k) / N with hμ
    set δ : ℚ := (1 - 2 * out.lr * N * sh t / T) ^ j * (c t - μ) with hδ
    have hz : ∑ k, (scens t k - μ) = 0 := by
      rw [Finset.sum_sub_distrib, Finset.sum_const, Finset.card_univ, Fintype.card_fin, nsmul_eq_mul, hμ]
      field_simp
      ring
    have : ∑ k, (scens t k - (μ + δ)) ^ 2 = ∑ k, (scens t k - μ) ^ 2 + N * δ ^ 2 := by
      have he : ∀ k, (scens t k - (μ + δ)) ^ 2 = (scens t k - μ) ^ 2 - 2 * δ * (scens t k - μ) + δ ^ 2 := fun k => by ring
      simp only [he]
      rw [Finset.sum_add_distrib, Finset.sum_sub_distrib, ← Finset.mul_sum, hz, Finset.sum_const, Finset.card_univ, Fintype.card_fin, nsmul_eq_mul]
      ring
    rw [this]
    have : 0 ≤ (N : ℚ) * δ ^ 2 := mul_nonneg (Nat.cast_nonneg N) (sq_nonneg δ)
    linarith

end PyF.TreeLoss
