import Verif.Fast.Props
import Mathlib.Analysis.SpecialFunctions.Complex.Circle
import Mathlib.Algebra.Field.GeomSum

namespace PyF.Fast

/-! ### Exactness on band-limited signals -/

section
variable {K : Type} [Field K]

/-- The signal with coefficients `x`: time `t` is described by basis row `t - 1` (`t + m - 1`, the rows having period `m`). -/
def sig (c : Fcfg K) (x : Fin (c.d + 1) → K) (t : Nat) : K := dot (c.B (t + c.m - 1)) x

/-- The states describe the signal observed up to and excluding time `n`. -/
def Exact (c : Fcfg K) (x : Fin (c.d + 1) → K) (n : Nat) (st : Fst K c.d) : Prop :=
  st.x = some x ∧ st.w = (List.range c.m).map (fun (r : Nat) => sig c x (n + r)) ∧ st.eps = 0 ∧ st.last = sig c x n

theorem mod_shift {β : Type} {f : Nat → β} {m : Nat} (h : ∀ t, f (t + m) = f t) (i k : Nat) : f (i % m + k) = f (i + k) := by
  have : ∀ q t, f (t + m * q) = f t := by
    intro q
    induction q with
    | zero => intro t; simp
    | succ q ih => intro t; rw [Nat.mul_succ, ← Nat.add_assoc, h, ih]
  conv_rhs => rw [← Nat.mod_add_div i m, show i % m + m * (i / m) + k = (i % m + k) + m * (i / m) by omega, this]

theorem list_sum_range (n : Nat) (f : Nat → K) : ((List.range n).map f).sum = ∑ r ∈ Finset.range n, f r := by
  induction n with
  | zero => simp
  | succ n ih => rw [List.range_succ, List.map_append, List.sum_append, ih, Finset.sum_range_succ]; simp

theorem exact_step (c : Fcfg K) (x : Fin (c.d + 1) → K) (n N : Nat) (hn : c.m ∣ n) (hm : 1 ≤ c.m) (hnsa : 1 ≤ c.nsa) (hp : c.period ≤ c.m)
    (hB : ∀ t, c.B (t + c.m) = c.B t)
    (hO : ∀ s a b, ∑ r ∈ Finset.range c.m, c.B (s + r) a * c.B (s + r) b = if a = b then 1 else 0)
    (hper : ∀ t, dot (c.B (t + c.period)) x = dot (c.B t) x) (i : Nat) (hi : i < N)
    (s : Work K c.d) (hx : s.x = x) (he : s.eps = 0) (hl : s.last = sig c x (n + i)) :
    ∃ s', fStep c ((List.range c.m).map (fun (r : Nat) => sig c x (n + r))) ((List.range N).map (fun (j : Nat) => sig c x (n + j))) s i =
        .ok (s', (List.range c.nsa).map (fun (h : Nat) => sig c x (n + i + 1 + h))) ∧
      s'.x = x ∧ s'.eps = 0 ∧ s'.last = sig c x (n + (i + 1)) ∧ s'.w = (List.range c.m).map (fun (r : Nat) => sig c x (n + (i + 1) + r)) := by
  have hsig : ∀ t, sig c x (t + c.m) = sig c x t := by
    intro t
    unfold sig
    rw [show t + c.m + c.m - 1 = (t + c.m - 1) + c.m by omega, hB]
  have hw : lastM c.m ((List.range c.m).map (fun (r : Nat) => sig c x (n + r)) ++ ((List.range N).map (fun (j : Nat) => sig c x (n + j))).take (i + 1)) =
      (List.range c.m).map (fun (r : Nat) => sig c x (n + (i + 1) + r)) := by
    have h1 : (List.range c.m).map (fun (r : Nat) => sig c x (n + r)) ++ ((List.range N).map (fun (j : Nat) => sig c x (n + j))).take (i + 1) =
        (List.range (c.m + (i + 1))).map (fun (r : Nat) => sig c x (n + r)) := by
      rw [List.range_add, List.map_append, List.map_map, ← List.map_take, List.take_range, Nat.min_eq_left (by omega)]
      congr 1
      apply List.map_congr_left
      intro j _
      simp only [Function.comp]
      rw [show n + (c.m + j) = n + j + c.m by omega, hsig]
    rw [h1]
    unfold lastM
    rw [List.length_map, List.length_range, show c.m + (i + 1) - c.m = i + 1 by omega, show c.m + (i + 1) = (i + 1) + c.m by omega,
      List.range_add, List.map_append, List.drop_append_of_le_length (by simp), List.drop_eq_nil_of_le (by simp), List.nil_append, List.map_map]
    apply List.map_congr_left
    intro j _
    simp only [Function.comp]
    rw [show n + (i + 1 + j) = n + (i + 1) + j by omega]
  have hgd : ∀ r, r < c.m → ((List.range c.m).map (fun (r : Nat) => sig c x (n + (i + 1) + r))).getD r 0 = sig c x (n + (i + 1) + r) := by
    intro r hr
    rw [List.getD_eq_getElem?_getD, List.getElem?_map, List.getElem?_range hr]
    rfl
  have hlast : ((List.range c.m).map (fun (r : Nat) => sig c x (n + (i + 1) + r))).getLastD 0 = sig c x (n + i) := by
    obtain ⟨q, hq⟩ : ∃ q, c.m = q + 1 := ⟨c.m - 1, by omega⟩
    rw [hq, List.range_succ, List.map_append]
    simp only [List.map_cons, List.map_nil, List.getLastD_eq_getLast?, List.getLast?_append, List.getLast?_singleton, Option.some_or, Option.getD_some]
    rw [show n + (i + 1) + q = n + i + c.m by omega, hsig]
  have hBn : ∀ t, c.B (n + t) = c.B t := by
    intro t
    have := mod_shift hB n t
    rw [Nat.mod_eq_zero_of_dvd hn, Nat.zero_add] at this
    exact this.symm
  have hproj : project c i ((List.range c.m).map (fun (r : Nat) => sig c x (n + (i + 1) + r))) = x := by
    funext a
    unfold project
    have h1 : (List.range c.m).map (fun (r : Nat) => c.B (i % c.m + r) a * ((List.range c.m).map (fun (r : Nat) => sig c x (n + (i + 1) + r))).getD r 0) =
        (List.range c.m).map (fun (r : Nat) => ∑ b, x b * (c.B (i + r) a * c.B (i + r) b)) := by
      apply List.map_congr_left
      intro r hr
      rw [hgd r (List.mem_range.1 hr), mod_shift hB]
      unfold sig dot
      rw [show n + (i + 1) + r + c.m - 1 = n + (i + r) + c.m by omega, hB, hBn, Finset.mul_sum]
      apply Finset.sum_congr rfl
      intro b _
      ring
    rw [h1, list_sum_range, Finset.sum_comm]
    simp only [← Finset.mul_sum, hO]
    simp
  have hpred : project' c i x = (List.range c.nsa).map (fun (h : Nat) => sig c x (n + i + 1 + h)) := by
    rw [project'_eq c hp hm]
    apply List.map_congr_left
    intro h _
    rw [show i % c.m + (c.m - c.period) + h = i % c.m + (c.m - c.period + h) by omega, mod_shift (f := c.B) hB, ← hper]
    unfold sig
    rw [show i + (c.m - c.period + h) + c.period = (i + h) + c.m by omega, hB, show n + i + 1 + h + c.m - 1 = n + (i + h) + c.m by omega, hB, hBn]
  unfold fStep
  have hwin := C42_window ((List.range N).map (fun (j : Nat) => sig c x (n + j))) ((List.range c.m).map (fun (r : Nat) => sig c x (n + r))) i
    (by simpa using hm) (by simpa using hi)
  rw [List.length_map, List.length_range] at hwin
  rw [hwin, hw]
  simp only
  rw [hproj, hx, hlast, hl, he, sub_self, mul_zero, mul_zero, add_zero]
  have hxx : (fun a => c.alpha * x a + (1 - c.alpha) * x a) = x := by funext a; ring
  rw [hxx, hpred]
  obtain ⟨k, hk⟩ : ∃ k, c.nsa = k + 1 := ⟨c.nsa - 1, by omega⟩
  have hcons : (List.range c.nsa).map (fun (h : Nat) => sig c x (n + i + 1 + h)) =
      sig c x (n + i + 1) :: ((List.range c.nsa).map (fun (h : Nat) => sig c x (n + i + 1 + h))).tail := by
    rw [hk, List.range_succ_eq_map]
    rfl
  rw [hcons]
  simp only
  rw [← hcons]
  refine ⟨{ x := x, w := (List.range c.m).map (fun (r : Nat) => sig c x (n + (i + 1) + r)), eps := 0, last := sig c x (n + i + 1) }, ?_, rfl, rfl, rfl, rfl⟩
  congr 2
  unfold addEps
  apply List.map_congr_left
  intro h hh
  rw [List.getD_eq_getElem?_getD, List.getElem?_map, List.getElem?_range (List.mem_range.1 hh)]
  simp

theorem exact_run (c : Fcfg K) (x : Fin (c.d + 1) → K) (n N : Nat) (hn : c.m ∣ n) (hm : 1 ≤ c.m) (hnsa : 1 ≤ c.nsa) (hp : c.period ≤ c.m)
    (hB : ∀ t, c.B (t + c.m) = c.B t)
    (hO : ∀ s a b, ∑ r ∈ Finset.range c.m, c.B (s + r) a * c.B (s + r) b = if a = b then 1 else 0)
    (hper : ∀ t, dot (c.B (t + c.period)) x = dot (c.B t) x) (st : Fst K c.d) (hst : Exact c x n st) :
    ∃ st', fRun c st ((List.range (N + 1)).map (fun (j : Nat) => sig c x (n + j))) =
        .ok (st', (List.range (N + 1)).map (fun (i : Nat) => (List.range c.nsa).map (fun (h : Nat) => sig c x (n + i + 1 + h)))) ∧
      Exact c x (n + (N + 1)) st' := by
  obtain ⟨h1, h2, h3, h4⟩ := hst
  have key : ∀ (k i : Nat) (s : Work K c.d), i + k ≤ N + 1 → s.x = x → s.eps = 0 → s.last = sig c x (n + i) →
      s.w = (List.range c.m).map (fun (r : Nat) => sig c x (n + i + r)) →
      ∃ s', fLoop c ((List.range c.m).map (fun (r : Nat) => sig c x (n + r))) ((List.range (N + 1)).map (fun (j : Nat) => sig c x (n + j))) s
          ((List.range k).map (fun (j : Nat) => i + j)) =
          .ok (s', (List.range k).map (fun (j : Nat) => (List.range c.nsa).map (fun (h : Nat) => sig c x (n + (i + j) + 1 + h)))) ∧
        s'.x = x ∧ s'.eps = 0 ∧ s'.last = sig c x (n + (i + k)) ∧ s'.w = (List.range c.m).map (fun (r : Nat) => sig c x (n + (i + k) + r)) := by
    intro k
    induction k with
    | zero => intro i s _ a b d e; exact ⟨s, rfl, a, b, d, e⟩
    | succ k ih =>
      intro i s hik a b d e
      have hm2 : ∀ {β : Type} (f : Nat → β), (List.range (k + 1)).map (fun (j : Nat) => f (i + j)) = f i :: (List.range k).map (fun (j : Nat) => f (i + 1 + j)) := by
        intro β f
        rw [List.range_succ_eq_map, List.map_cons, List.map_map]
        congr 1
        apply List.map_congr_left
        intro j _
        simp only [Function.comp]
        congr 1
        omega
      obtain ⟨s1, e1, e2, e3, e4, e5⟩ := exact_step c x n (N + 1) hn hm hnsa hp hB hO hper i (by omega) s a b d
      obtain ⟨s2, f1, f2, f3, f4, f5⟩ := ih (i + 1) s1 (by omega) e2 e3 e4 (by rw [e5])
      refine ⟨s2, ?_, f2, f3, by rw [f4]; congr 2; omega, by rw [f5, show i + 1 + k = i + (k + 1) by omega]⟩
      rw [hm2 (fun t => t), hm2 (fun t => (List.range c.nsa).map (fun (h : Nat) => sig c x (n + t + 1 + h)))]
      unfold fLoop
      rw [e1]
      simp only
      rw [f1]
  obtain ⟨s', e1, e2, e3, e4, e5⟩ := key (N + 1) 0 { x := x, w := st.w, eps := st.eps, last := st.last } (by omega) rfl h3 h4 (by rw [h2]; rfl)
  simp only [Nat.zero_add] at e1 e4 e5
  unfold fRun
  rw [List.range_succ_eq_map, List.map_cons]
  simp only
  rw [← List.map_cons (f := fun (j : Nat) => sig c x (n + j)), ← List.range_succ_eq_map, List.length_map, List.length_range]
  have hini : initX c st (sig c x (n + 0)) = x := by unfold initX; rw [h1]
  have hid : (List.range (N + 1)).map (fun (j : Nat) => j) = List.range (N + 1) := List.map_id' _
  rw [hid] at e1
  rw [hini, h2] at *
  rw [e1]
  exact ⟨_, rfl, congrArg some e2, e5, e3, e4⟩

end

/-! ### The discrete Fourier basis -/

theorem trig_sums (m : Nat) (hm : 1 ≤ m) (k : ℤ) (hk : ¬ (m : ℤ) ∣ k) (s : Nat) :
    ∑ r ∈ Finset.range m, Real.cos (2 * Real.pi * k * ((s + r : Nat) : ℝ) / m) = 0 ∧
      ∑ r ∈ Finset.range m, Real.sin (2 * Real.pi * k * ((s + r : Nat) : ℝ) / m) = 0 := by
  have hm0 : (m : ℂ) ≠ 0 := by exact_mod_cast (show m ≠ 0 by omega)
  set ζ : ℂ := Complex.exp (2 * Real.pi * Complex.I * k / m) with hζ
  have hζ1 : ζ ≠ 1 := by
    intro h
    rw [hζ, Complex.exp_eq_one_iff] at h
    obtain ⟨n, hn⟩ := h
    apply hk
    have hpi : (2 * Real.pi * Complex.I : ℂ) ≠ 0 := Complex.two_pi_I_ne_zero
    have h2 : (k : ℂ) = n * m := by
      have : (2 * Real.pi * Complex.I : ℂ) * k = (2 * Real.pi * Complex.I) * (n * m) := by
        field_simp at hn
        linear_combination (2 * Real.pi * Complex.I) * hn
      exact mul_left_cancel₀ hpi this
    exact ⟨n, by rw [mul_comm]; exact_mod_cast h2⟩
  have hζm : ζ ^ m = 1 := by
    rw [hζ, ← Complex.exp_nat_mul, Complex.exp_eq_one_iff]
    exact ⟨k, by field_simp⟩
  have hsum : ∑ r ∈ Finset.range m, Complex.exp (((2 * Real.pi * k * ((s + r : Nat) : ℝ) / m : ℝ) : ℂ) * Complex.I) = 0 := by
    have h1 : ∀ r, Complex.exp (((2 * Real.pi * k * ((s + r : Nat) : ℝ) / m : ℝ) : ℂ) * Complex.I) = ζ ^ s * ζ ^ r := by
      intro r
      rw [hζ, ← pow_add, ← Complex.exp_nat_mul]
      congr 1
      push_cast
      ring
    simp only [h1]
    rw [← Finset.mul_sum]
    have h2 : (∑ r ∈ Finset.range m, ζ ^ r) * (ζ - 1) = 0 := by rw [geom_sum_mul, hζm, sub_self]
    rw [(mul_eq_zero.1 h2).resolve_right (sub_ne_zero.2 hζ1), mul_zero]
  constructor
  · have := congrArg Complex.re hsum
    rw [Complex.re_sum, Complex.zero_re] at this
    simpa only [Complex.exp_ofReal_mul_I_re] using this
  · have := congrArg Complex.im hsum
    rw [Complex.im_sum, Complex.zero_im] at this
    simpa only [Complex.exp_ofReal_mul_I_im] using this

/-- Angle of harmonic `k` at time `t`. -/
noncomputable def ang (m : Nat) (k : ℤ) (t : Nat) : ℝ := 2 * Real.pi * k * (t : ℝ) / m

theorem ang_add (m : Nat) (j k : ℤ) (t : Nat) : ang m j t + ang m k t = ang m (j + k) t := by
  unfold ang; push_cast; ring

theorem ang_sub (m : Nat) (j k : ℤ) (t : Nat) : ang m j t - ang m k t = ang m (j - k) t := by
  unfold ang; push_cast; ring

theorem sums' (m : Nat) (hm : 1 ≤ m) (k : ℤ) (s : Nat) :
    (∑ r ∈ Finset.range m, Real.cos (ang m k (s + r)) = if (m : ℤ) ∣ k then (m : ℝ) else 0) ∧
      ∑ r ∈ Finset.range m, Real.sin (ang m k (s + r)) = 0 := by
  by_cases h : (m : ℤ) ∣ k
  · obtain ⟨q, rfl⟩ := h
    have hm0 : (m : ℝ) ≠ 0 := by exact_mod_cast (show m ≠ 0 by omega)
    have e : ∀ t : Nat, ang m (m * q) t = ((q * t : ℤ) : ℝ) * (2 * Real.pi) := by
      intro t; unfold ang; push_cast; field_simp
    have hc : ∀ t : Nat, Real.cos (ang m (m * q) t) = 1 := by intro t; rw [e]; exact Real.cos_int_mul_two_pi _
    have hs : ∀ t : Nat, Real.sin (ang m (m * q) t) = 0 := by
      intro t; rw [e]
      have := Real.sin_int_mul_pi (2 * (q * t))
      push_cast at this ⊢
      rw [← this]; congr 1; ring
    simp [hc, hs]
  · rw [if_neg h]
    exact trig_sums m hm k h s

theorem prod_sums (m : Nat) (hm : 1 ≤ m) (j k : ℤ) (s : Nat) :
    (∑ r ∈ Finset.range m, Real.cos (ang m j (s + r)) * Real.cos (ang m k (s + r)) =
        ((if (m : ℤ) ∣ j - k then (m : ℝ) else 0) + (if (m : ℤ) ∣ j + k then (m : ℝ) else 0)) / 2) ∧
      (∑ r ∈ Finset.range m, Real.sin (ang m j (s + r)) * Real.sin (ang m k (s + r)) =
        ((if (m : ℤ) ∣ j - k then (m : ℝ) else 0) - (if (m : ℤ) ∣ j + k then (m : ℝ) else 0)) / 2) ∧
      ∑ r ∈ Finset.range m, Real.sin (ang m j (s + r)) * Real.cos (ang m k (s + r)) = 0 := by
  obtain ⟨d1, d2⟩ := sums' m hm (j - k) s
  obtain ⟨p1, p2⟩ := sums' m hm (j + k) s
  refine ⟨?_, ?_, ?_⟩
  · rw [← d1, ← p1, ← Finset.sum_add_distrib, Finset.sum_div]
    apply Finset.sum_congr rfl
    intro r _
    rw [← ang_sub, ← ang_add, Real.cos_sub, Real.cos_add]; ring
  · rw [← d1, ← p1, ← Finset.sum_sub_distrib, Finset.sum_div]
    apply Finset.sum_congr rfl
    intro r _
    rw [← ang_sub, ← ang_add, Real.cos_sub, Real.cos_add]; ring
  · have : ∑ r ∈ Finset.range m, Real.sin (ang m j (s + r)) * Real.cos (ang m k (s + r)) =
        (∑ r ∈ Finset.range m, Real.sin (ang m (j + k) (s + r)) + ∑ r ∈ Finset.range m, Real.sin (ang m (j - k) (s + r))) / 2 := by
      rw [← Finset.sum_add_distrib, Finset.sum_div]
      apply Finset.sum_congr rfl
      intro r _
      rw [← ang_sub, ← ang_add, Real.sin_sub, Real.sin_add]; ring
    rw [this, d2, p2]; simp

/-- The unnormalised entry of `get_basis`. -/
noncomputable def raw (l nh : Nat) (t : Nat) (a : Fin (2 * nh + 1)) : ℝ :=
  if a.val = 0 then 1 / Real.sqrt 2
  else if a.val % 2 = 1 then Real.sin (ang l (((a.val - 1) / 2 + 1 : Nat) : ℤ) t) else Real.cos (ang l (((a.val - 1) / 2 + 1 : Nat) : ℤ) t)

theorem getBasis_eq (l nh t : Nat) (a : Fin (2 * nh + 1)) : getBasis l nh t a = raw l nh t a * Real.sqrt (2 / l) := by
  unfold getBasis raw ang
  simp only [Int.cast_natCast]

theorem getBasis_periodic (l nh : Nat) (hl : 1 ≤ l) (t : Nat) : getBasis l nh (t + l) = getBasis l nh t := by
  have hl0 : (l : ℝ) ≠ 0 := by exact_mod_cast (show l ≠ 0 by omega)
  funext a
  rw [getBasis_eq, getBasis_eq]
  congr 1
  have e : ∀ k : Nat, ang l (k : ℤ) (t + l) = ang l (k : ℤ) t + (k : ℝ) * (2 * Real.pi) := by
    intro k
    unfold ang
    push_cast
    field_simp
  unfold raw
  rw [e, Real.sin_add_nat_mul_two_pi, Real.cos_add_nat_mul_two_pi]

/-- The columns of `get_basis` are orthonormal over any window of length `l`, as long as all harmonics are below `l / 2`. -/
theorem getBasis_orthonormal (l nh : Nat) (hl : 2 * nh < l) (s : Nat) (a b : Fin (2 * nh + 1)) :
    ∑ r ∈ Finset.range l, getBasis l nh (s + r) a * getBasis l nh (s + r) b = if a = b then 1 else 0 := by
  have hl1 : 1 ≤ l := by omega
  have hl0 : (l : ℝ) ≠ 0 := by exact_mod_cast (show l ≠ 0 by omega)
  have hsq : Real.sqrt (2 / l) * Real.sqrt (2 / l) = 2 / l := Real.mul_self_sqrt (by positivity)
  have h2 : (1 / Real.sqrt 2) * (1 / Real.sqrt 2) = 1 / 2 := by
    rw [div_mul_div_comm, Real.mul_self_sqrt (by norm_num), one_mul]
  have hred : ∑ r ∈ Finset.range l, getBasis l nh (s + r) a * getBasis l nh (s + r) b =
      (2 / l) * ∑ r ∈ Finset.range l, raw l nh (s + r) a * raw l nh (s + r) b := by
    rw [Finset.mul_sum]
    apply Finset.sum_congr rfl
    intro r _
    rw [getBasis_eq, getBasis_eq]
    linear_combination (raw l nh (s + r) a * raw l nh (s + r) b) * hsq
  rw [hred]
  have ndvd : ∀ z : ℤ, 0 < z → z < l → ¬ (l : ℤ) ∣ z := fun z h1 h2 h3 => by
    have := Int.le_of_dvd h1 h3; omega
  have ndvd' : ∀ z : ℤ, z ≠ 0 → -(l : ℤ) < z → z < l → ¬ (l : ℤ) ∣ z := by
    intro z h0 h1 h2 h3
    rcases lt_trichotomy z 0 with h | h | h
    · exact ndvd (-z) (by omega) (by omega) ((dvd_neg).2 h3)
    · exact h0 h
    · exact ndvd z h h2 h3
  have ha := a.isLt
  have hb := b.isLt
  set p : Nat := (a.val - 1) / 2 + 1 with hp
  set q : Nat := (b.val - 1) / 2 + 1 with hq
  obtain ⟨cc, ss, sc⟩ := prod_sums l hl1 (p : ℤ) (q : ℤ) s
  have cs : ∑ r ∈ Finset.range l, Real.cos (ang l p (s + r)) * Real.sin (ang l q (s + r)) = 0 := by
    have := (prod_sums l hl1 (q : ℤ) (p : ℤ) s).2.2
    rw [← this]
    exact Finset.sum_congr rfl (fun r _ => mul_comm _ _)
  have hab : a = b ↔ a.val = b.val := Fin.ext_iff
  by_cases a0 : a.val = 0
  · by_cases b0 : b.val = 0
    · rw [if_pos (hab.2 (by omega))]
      simp only [raw, a0, b0, if_true, h2]
      rw [Finset.sum_const, Finset.card_range, nsmul_eq_mul]
      field_simp
    · rw [if_neg (by rw [hab]; omega)]
      obtain ⟨u1, u2⟩ := sums' l hl1 (q : ℤ) s
      rw [if_neg (ndvd q (by omega) (by omega))] at u1
      have : ∑ r ∈ Finset.range l, raw l nh (s + r) a * raw l nh (s + r) b = 0 := by
        by_cases bo : b.val % 2 = 1
        · simp only [raw, a0, b0, if_true, if_false, bo, ← hq]
          rw [← Finset.mul_sum, u2, mul_zero]
        · simp only [raw, a0, b0, if_true, if_false, bo, ← hq]
          rw [← Finset.mul_sum, u1, mul_zero]
      rw [this, mul_zero]
  · by_cases b0 : b.val = 0
    · rw [if_neg (by rw [hab]; omega)]
      obtain ⟨u1, u2⟩ := sums' l hl1 (p : ℤ) s
      rw [if_neg (ndvd p (by omega) (by omega))] at u1
      have : ∑ r ∈ Finset.range l, raw l nh (s + r) a * raw l nh (s + r) b = 0 := by
        by_cases ao : a.val % 2 = 1
        · simp only [raw, a0, b0, if_true, if_false, ao, ← hp]
          rw [← Finset.sum_mul, u2, zero_mul]
        · simp only [raw, a0, b0, if_true, if_false, ao, ← hp]
          rw [← Finset.sum_mul, u1, zero_mul]
      rw [this, mul_zero]
    · have hplus : ¬ (l : ℤ) ∣ (p : ℤ) + q := ndvd _ (by omega) (by omega)
      have hminus : (l : ℤ) ∣ (p : ℤ) - q ↔ p = q := by
        constructor
        · intro h
          by_contra hne
          exact ndvd' _ (by omega) (by omega) (by omega) h
        · intro h; rw [h, sub_self]; exact dvd_zero _
      rw [if_neg hplus] at cc ss
      by_cases ao : a.val % 2 = 1
      · by_cases bo : b.val % 2 = 1
        · simp only [raw, a0, b0, if_false, ao, bo, if_true, ← hp, ← hq]
          rw [ss]
          by_cases hpq : p = q
          · rw [if_pos (hminus.2 hpq), if_pos (hab.2 (by omega))]; field_simp; ring
          · rw [if_neg (fun h => hpq (hminus.1 h)), if_neg (by rw [hab]; omega)]; simp
        · simp only [raw, a0, b0, if_false, ao, bo, if_true, ← hp, ← hq]
          rw [sc, if_neg (by rw [hab]; omega), mul_zero]
      · by_cases bo : b.val % 2 = 1
        · simp only [raw, a0, b0, if_false, ao, bo, if_true, ← hp, ← hq]
          rw [cs, if_neg (by rw [hab]; omega), mul_zero]
        · simp only [raw, a0, b0, if_false, ao, bo, ← hp, ← hq]
          rw [cc]
          by_cases hpq : p = q
          · rw [if_pos (hminus.2 hpq), if_pos (hab.2 (by omega))]; field_simp; ring
          · rw [if_neg (fun h => hpq (hminus.1 h)), if_neg (by rw [hab]; omega)]; simp

/-- `Fourier_es` with the real basis. -/
noncomputable def realCfg (m nsa period nh : Nat) (alpha omega : ℝ) : Fcfg ℝ where
  m := m
  nsa := nsa
  period := period
  alpha := alpha
  omega := omega
  d := 2 * nh
  B := getBasis m nh
  sqrtM := Real.sqrt m

/-- C88 (exactness): with harmonics below half the window, if the states describe a signal with period `m` (and
`periodicity`) made of these harmonics and the number of samples seen so far is a multiple of `m`, all forecasts are exact
and the states keep describing the signal. -/
theorem C88_exact_in_phase (m nsa period nh : Nat) (alpha omega : ℝ) (hnh : 2 * nh < m) (hnsa : 1 ≤ nsa) (hp : period ≤ m)
    (x : Fin (2 * nh + 1) → ℝ) (hper : ∀ t, dot (getBasis m nh (t + period)) x = dot (getBasis m nh t) x) (n N : Nat) (hn : m ∣ n)
    (st : Fst ℝ (2 * nh)) (hst : Exact (realCfg m nsa period nh alpha omega) x n st) :
    ∃ st', fRun (realCfg m nsa period nh alpha omega) st ((List.range (N + 1)).map (fun (j : Nat) => sig (realCfg m nsa period nh alpha omega) x (n + j))) =
        .ok (st', (List.range (N + 1)).map (fun (i : Nat) => (List.range nsa).map (fun (h : Nat) => sig (realCfg m nsa period nh alpha omega) x (n + i + 1 + h)))) ∧
      Exact (realCfg m nsa period nh alpha omega) x (n + (N + 1)) st' :=
  exact_run (realCfg m nsa period nh alpha omega) x n N hn (show 1 ≤ m by omega) hnsa hp (fun t => getBasis_periodic m nh (by omega) t)
    (fun s a b => getBasis_orthonormal m nh hnh s a b) hper st hst

/-! ### The phase is not stored -/

section
variable {K : Type} [Field K]

/-- Reconstruction from the projected window: the window of the samples up to time `n + i` is projected on rows that start at
`i`, so the reconstruction at row `t` is the signal `n` rows later. -/
theorem dot_project (c : Fcfg K) (x : Fin (c.d + 1) → K) (n i t : Nat) (hm : 1 ≤ c.m)
    (hB : ∀ t, c.B (t + c.m) = c.B t)
    (hO : ∀ s a b, ∑ r ∈ Finset.range c.m, c.B (s + r) a * c.B (s + r) b = if a = b then 1 else 0)
    (hK : ∀ n t s, ∑ a, c.B (t + n) a * c.B (s + n) a = ∑ a, c.B t a * c.B s a) :
    dot (c.B t) (project c i ((List.range c.m).map (fun (r : Nat) => sig c x (n + (i + 1) + r)))) = dot (c.B (t + n)) x := by
  have hgd : ∀ r, r < c.m → ((List.range c.m).map (fun (r : Nat) => sig c x (n + (i + 1) + r))).getD r 0 = sig c x (n + (i + 1) + r) := by
    intro r hr
    rw [List.getD_eq_getElem?_getD, List.getElem?_map, List.getElem?_range hr]
    rfl
  have hs : ∀ r, sig c x (n + (i + 1) + r) = ∑ b, c.B ((i + r) + n) b * x b := by
    intro r
    unfold sig dot
    rw [show n + (i + 1) + r + c.m - 1 = (i + r) + n + c.m by omega, hB]
  have hpr : ∀ a, project c i ((List.range c.m).map (fun (r : Nat) => sig c x (n + (i + 1) + r))) a =
      ∑ r ∈ Finset.range c.m, c.B (i + r) a * sig c x (n + (i + 1) + r) := by
    intro a
    unfold project
    rw [← list_sum_range]
    congr 1
    apply List.map_congr_left
    intro r hr
    rw [hgd r (List.mem_range.1 hr), mod_shift hB]
  unfold dot
  simp only [hpr]
  calc ∑ a, c.B t a * ∑ r ∈ Finset.range c.m, c.B (i + r) a * sig c x (n + (i + 1) + r)
      = ∑ r ∈ Finset.range c.m, (∑ a, c.B t a * c.B (i + r) a) * sig c x (n + (i + 1) + r) := by
        simp only [Finset.mul_sum, Finset.sum_mul]
        rw [Finset.sum_comm]
        exact Finset.sum_congr rfl (fun r _ => Finset.sum_congr rfl (fun a _ => by ring))
    _ = ∑ r ∈ Finset.range c.m, (∑ a, c.B (t + n) a * c.B (i + r + n) a) * ∑ b, c.B (i + r + n) b * x b := by
        refine Finset.sum_congr rfl (fun r _ => ?_)
        rw [hK n t (i + r), hs]
    _ = ∑ a, ∑ b, c.B (t + n) a * x b * ∑ r ∈ Finset.range c.m, c.B (i + n + r) a * c.B (i + n + r) b := by
        simp only [Finset.mul_sum, Finset.sum_mul]
        rw [Finset.sum_comm]
        rw [Finset.sum_congr rfl (fun b _ => Finset.sum_comm)]
        rw [Finset.sum_comm]
        refine Finset.sum_congr rfl (fun a _ => Finset.sum_congr rfl (fun b _ => Finset.sum_congr rfl (fun r _ => ?_)))
        rw [show i + r + n = i + n + r by omega]
        ring
    _ = ∑ a, c.B (t + n) a * x a := by
        simp only [hO]
        simp

end

theorem sum_pairs {M : Type} [AddCommMonoid M] (nh : Nat) (f : Nat → M) :
    ∑ a : Fin (2 * nh + 1), f a.val = f 0 + ∑ k ∈ Finset.range nh, (f (2 * k + 1) + f (2 * k + 2)) := by
  rw [Fin.sum_univ_eq_sum_range]
  induction nh with
  | zero => simp
  | succ k ih =>
    rw [show 2 * (k + 1) + 1 = 2 * k + 1 + 1 + 1 by ring, Finset.sum_range_succ, Finset.sum_range_succ, ih, Finset.sum_range_succ]
    simp only [add_assoc]

/-- The kernel of the basis depends on the time difference only. -/
theorem getBasis_kernel (l nh : Nat) (n t s : Nat) :
    ∑ a, getBasis l nh (t + n) a * getBasis l nh (s + n) a = ∑ a, getBasis l nh t a * getBasis l nh s a := by
  have key : ∀ t s, ∑ a, getBasis l nh t a * getBasis l nh s a =
      ((1 / Real.sqrt 2) * (1 / Real.sqrt 2) + ∑ k ∈ Finset.range nh, Real.cos (2 * Real.pi * ((k + 1 : Nat) : ℝ) * ((t : ℝ) - s) / l)) *
        (Real.sqrt (2 / l) * Real.sqrt (2 / l)) := by
    intro t s
    have := sum_pairs nh (fun (a : Nat) => (if a = 0 then 1 / Real.sqrt 2
      else if a % 2 = 1 then Real.sin (ang l (((a - 1) / 2 + 1 : Nat) : ℤ) t) else Real.cos (ang l (((a - 1) / 2 + 1 : Nat) : ℤ) t)) * (if a = 0 then 1 / Real.sqrt 2
      else if a % 2 = 1 then Real.sin (ang l (((a - 1) / 2 + 1 : Nat) : ℤ) s) else Real.cos (ang l (((a - 1) / 2 + 1 : Nat) : ℤ) s)))
    simp only [getBasis_eq]
    rw [show ∑ a, raw l nh t a * Real.sqrt (2 / l) * (raw l nh s a * Real.sqrt (2 / l)) =
      (∑ a, raw l nh t a * raw l nh s a) * (Real.sqrt (2 / l) * Real.sqrt (2 / l)) by
        rw [Finset.sum_mul]; exact Finset.sum_congr rfl (fun a _ => by ring)]
    congr 1
    unfold raw
    rw [this]
    simp only [if_true]
    congr 1
    refine Finset.sum_congr rfl (fun k _ => ?_)
    rw [if_neg (by omega), if_pos (by omega), if_neg (by omega), if_pos (by omega), if_neg (by omega), if_neg (by omega), if_neg (by omega), if_neg (by omega),
      show (2 * k + 1 - 1) / 2 + 1 = k + 1 by omega, show (2 * k + 2 - 1) / 2 + 1 = k + 1 by omega,
      show 2 * Real.pi * ((k + 1 : Nat) : ℝ) * ((t : ℝ) - s) / l = ang l ((k + 1 : Nat) : ℤ) t - ang l ((k + 1 : Nat) : ℤ) s by
        unfold ang; push_cast; ring, Real.cos_sub]
    ring
  rw [key, key]
  push_cast
  simp only [add_sub_add_right_eq_sub]

section
variable {K : Type} [Field K]

theorem dot_lin {d : Nat} (r u v : Fin (d + 1) → K) (p q : K) : dot r (fun a => p * u a + q * v a) = p * dot r u + q * dot r v := by
  unfold dot
  rw [Finset.mul_sum, Finset.mul_sum, ← Finset.sum_add_distrib]
  exact Finset.sum_congr rfl (fun a _ => by ring)

theorem phase_generic (c : Fcfg K) (x : Fin (c.d + 1) → K) (n : Nat) (hm : 1 ≤ c.m) (hnsa : 1 ≤ c.nsa) (hp : c.period ≤ c.m)
    (hB : ∀ t, c.B (t + c.m) = c.B t)
    (hO : ∀ s a b, ∑ r ∈ Finset.range c.m, c.B (s + r) a * c.B (s + r) b = if a = b then 1 else 0)
    (hK : ∀ n t s, ∑ a, c.B (t + n) a * c.B (s + n) a = ∑ a, c.B t a * c.B s a)
    (hper : ∀ t, dot (c.B (t + c.period)) x = dot (c.B t) x)
    (st : Fst K c.d) (hst : Exact c x n st) (ys : List K) :
    ∃ st' R, fRun c st (sig c x n :: ys) =
      .ok (st', (List.range c.nsa).map (fun (h : Nat) => c.alpha * sig c x (n + 1 + h) + (1 - c.alpha) * sig c x (1 + h)) :: R) := by
  have hsig : ∀ t, sig c x (t + c.m) = sig c x t := by
    intro t
    unfold sig
    rw [show t + c.m + c.m - 1 = (t + c.m - 1) + c.m by omega, hB]
  obtain ⟨hx, hw, he, hl⟩ := hst
  have hwl : st.w.length = c.m := by rw [hw]; simp
  have hwin := C42_window (sig c x n :: ys) st.w 0 (by omega) (by simp)
  have hw1 : lastM st.w.length (st.w ++ (sig c x n :: ys).take (0 + 1)) = (List.range c.m).map (fun (r : Nat) => sig c x (n + (0 + 1) + r)) := by
    rw [hwl, hw]
    have h1 : (List.range c.m).map (fun (r : Nat) => sig c x (n + r)) ++ (sig c x n :: ys).take (0 + 1) =
        (List.range (1 + c.m)).map (fun (r : Nat) => sig c x (n + r)) := by
      rw [show 1 + c.m = c.m + 1 by omega, List.range_succ, List.map_append]
      simp only [List.map_cons, List.map_nil, hsig]
      rfl
    rw [h1]
    unfold lastM
    rw [List.length_map, List.length_range, show 1 + c.m - c.m = 1 by omega,
      List.range_add, List.map_append, List.drop_append_of_le_length (by simp), List.drop_eq_nil_of_le (by simp), List.nil_append, List.map_map]
    apply List.map_congr_left
    intro j _
    simp only [Function.comp]
    rw [show n + (1 + j) = n + (0 + 1) + j by omega]
  have hlast : ((List.range c.m).map (fun (r : Nat) => sig c x (n + (0 + 1) + r))).getLastD 0 = sig c x n := by
    obtain ⟨q, hq⟩ : ∃ q, c.m = q + 1 := ⟨c.m - 1, by omega⟩
    rw [hq, List.range_succ, List.map_append]
    simp only [List.map_cons, List.map_nil, List.getLastD_eq_getLast?, List.getLast?_append, List.getLast?_singleton, Option.some_or, Option.getD_some]
    rw [show n + (0 + 1) + q = n + c.m by omega, hsig]
  have hpred : ∀ h, dot (c.B (0 % c.m + (c.m - c.period) + h)) (fun a => c.alpha * project c 0 ((List.range c.m).map (fun (r : Nat) => sig c x (n + (0 + 1) + r))) a +
      (1 - c.alpha) * x a) = c.alpha * sig c x (n + 1 + h) + (1 - c.alpha) * sig c x (1 + h) := by
    intro h
    rw [dot_lin, dot_project c x n 0 _ hm hB hO hK, Nat.zero_mod, Nat.zero_add]
    have e1 : dot (c.B (c.m - c.period + h + n)) x = sig c x (n + 1 + h) := by
      rw [← hper]
      unfold sig
      rw [show c.m - c.period + h + n + c.period = n + 1 + h + c.m - 1 by omega]
    have e2 : dot (c.B (c.m - c.period + h)) x = sig c x (1 + h) := by
      rw [← hper]
      unfold sig
      rw [show c.m - c.period + h + c.period = 1 + h + c.m - 1 by omega]
    rw [e1, e2]
  have hadd : addEps c 0 ((List.range c.nsa).map (fun (h : Nat) => c.alpha * sig c x (n + 1 + h) + (1 - c.alpha) * sig c x (1 + h))) =
      (List.range c.nsa).map (fun (h : Nat) => c.alpha * sig c x (n + 1 + h) + (1 - c.alpha) * sig c x (1 + h)) := by
    unfold addEps
    apply List.map_congr_left
    intro h hh
    rw [List.getD_eq_getElem?_getD, List.getElem?_map, List.getElem?_range (List.mem_range.1 hh)]
    simp
  have hstep : ∃ s', fStep c st.w (sig c x n :: ys) { x := initX c st (sig c x n), w := st.w, eps := st.eps, last := st.last } 0 =
      .ok (s', (List.range c.nsa).map (fun (h : Nat) => c.alpha * sig c x (n + 1 + h) + (1 - c.alpha) * sig c x (1 + h))) := by
    unfold fStep
    rw [← hwl, hwin, hw1]
    simp only
    have hix : initX c st (sig c x n) = x := by unfold initX; rw [hx]
    rw [project'_eq c hp hm, hix]
    simp only [hpred]
    rw [hlast, hl, he, sub_self, mul_zero, mul_zero, add_zero]
    obtain ⟨k, hk⟩ : ∃ k, c.nsa = k + 1 := ⟨c.nsa - 1, by omega⟩
    generalize hL : (List.range c.nsa).map (fun (h : Nat) => c.alpha * sig c x (n + 1 + h) + (1 - c.alpha) * sig c x (1 + h)) = L at hadd ⊢
    cases L with
    | nil => rw [hk, List.range_succ_eq_map] at hL; cases hL
    | cons p ps => simp only; rw [hadd]; exact ⟨_, rfl⟩
  obtain ⟨s', hs'⟩ := hstep
  obtain ⟨s2, rs, h2, _, _⟩ := fLoop_ok c st.w (sig c x n :: ys) hwl hm hp hnsa ((List.range ys.length).map Nat.succ)
    (by intro i hi; obtain ⟨j, hj, rfl⟩ := List.mem_map.1 hi; rw [List.mem_range] at hj; simp; omega) s'
  unfold fRun
  simp only
  rw [List.length_cons, List.range_succ_eq_map]
  unfold fLoop
  rw [hs']
  simp only
  rw [h2]
  exact ⟨_, _, rfl⟩

end

/-- C88 (phase): after `n` samples, with states that describe the signal, the first forecast row of the next call mixes the
true continuation (weight `alpha`) with the continuation from time 0 (weight `1 - alpha`): each call restarts the phase of
the basis at zero but keeps the coefficients. -/
theorem C88_phase_restarts (m nsa period nh : Nat) (alpha omega : ℝ) (hnh : 2 * nh < m) (hnsa : 1 ≤ nsa) (hp : period ≤ m)
    (x : Fin (2 * nh + 1) → ℝ) (hper : ∀ t, dot (getBasis m nh (t + period)) x = dot (getBasis m nh t) x) (n : Nat) (ys : List ℝ)
    (st : Fst ℝ (2 * nh)) (hst : Exact (realCfg m nsa period nh alpha omega) x n st) :
    ∃ st' R, fRun (realCfg m nsa period nh alpha omega) st (sig (realCfg m nsa period nh alpha omega) x n :: ys) =
      .ok (st', (List.range nsa).map (fun (h : Nat) => alpha * sig (realCfg m nsa period nh alpha omega) x (n + 1 + h) +
        (1 - alpha) * sig (realCfg m nsa period nh alpha omega) x (1 + h)) :: R) :=
  phase_generic (realCfg m nsa period nh alpha omega) x n (show 1 ≤ m by omega) hnsa hp (fun t => getBasis_periodic m nh (by omega) t)
    (fun s a b => getBasis_orthonormal m nh hnh s a b) (fun n t s => getBasis_kernel m nh n t s) hper st hst ys

/-- Counterpart: the signal `cos(pi (t - 1) / 2)`, four samples per period, fitted up to time 1: the first forecast of the
next call is `1 - alpha` whereas the signal then is `0`. -/
theorem C88_phase_witness (alpha omega : ℝ) (ha : alpha < 1) :
    ∃ (x : Fin 3 → ℝ) (st : Fst ℝ 2), Exact (realCfg 4 1 4 1 alpha omega) x 1 st ∧ sig (realCfg 4 1 4 1 alpha omega) x 2 = 0 ∧
      ∃ st' v R, fRun (realCfg 4 1 4 1 alpha omega) st [sig (realCfg 4 1 4 1 alpha omega) x 1] = .ok (st', [v] :: R) ∧ v = 1 - alpha ∧ v ≠ 0 := by
  have hs2 : Real.sqrt 2 * Real.sqrt 2 = 2 := Real.mul_self_sqrt (by norm_num)
  have hval : ∀ t, sig (realCfg 4 1 4 1 alpha omega) ![0, 0, Real.sqrt 2] t = Real.cos (2 * Real.pi * ((t + 4 - 1 : Nat) : ℝ) / 4) := by
    intro t
    have : sig (realCfg 4 1 4 1 alpha omega) ![0, 0, Real.sqrt 2] t = dot (getBasis 4 1 (t + 4 - 1)) ![0, 0, Real.sqrt 2] := rfl
    rw [this]
    unfold dot
    rw [Fin.sum_univ_three]
    have h24 : Real.sqrt (2 / ((4 : Nat) : ℝ)) * Real.sqrt 2 = 1 := by
      rw [← Real.sqrt_mul (by norm_num)]
      norm_num
    simp only [getBasis, Matrix.cons_val_zero, Matrix.cons_val_one, Matrix.cons_val, mul_zero, zero_add]
    rw [mul_assoc, h24, mul_one]
    norm_num
  have v1 : sig (realCfg 4 1 4 1 alpha omega) ![0, 0, Real.sqrt 2] 1 = 1 := by
    rw [hval, show (2 * Real.pi * ((1 + 4 - 1 : Nat) : ℝ) / 4) = 2 * Real.pi by push_cast; ring, Real.cos_two_pi]
  have v2 : sig (realCfg 4 1 4 1 alpha omega) ![0, 0, Real.sqrt 2] 2 = 0 := by
    rw [hval, show (2 * Real.pi * ((2 + 4 - 1 : Nat) : ℝ) / 4) = Real.pi / 2 + 2 * Real.pi by push_cast; ring, Real.cos_add_two_pi, Real.cos_pi_div_two]
  let st : Fst ℝ 2 := { x := some ![0, 0, Real.sqrt 2], w := (List.range 4).map (fun (r : Nat) => sig (realCfg 4 1 4 1 alpha omega) ![0, 0, Real.sqrt 2] (1 + r)), eps := 0, last := sig (realCfg 4 1 4 1 alpha omega) ![0, 0, Real.sqrt 2] 1 }
  have hex : Exact (realCfg 4 1 4 1 alpha omega) ![0, 0, Real.sqrt 2] 1 st := ⟨rfl, rfl, rfl, rfl⟩
  refine ⟨![0, 0, Real.sqrt 2], st, hex, v2, ?_⟩
  obtain ⟨st', R, h1⟩ := C88_phase_restarts 4 1 4 1 alpha omega (by norm_num) (le_refl _) (le_refl _) ![0, 0, Real.sqrt 2]
    (fun t => by rw [getBasis_periodic 4 1 (by norm_num)]) 1 [] st hex
  have hr : (List.range 1).map (fun (h : Nat) => alpha * sig (realCfg 4 1 4 1 alpha omega) ![0, 0, Real.sqrt 2] (1 + 1 + h) +
        (1 - alpha) * sig (realCfg 4 1 4 1 alpha omega) ![0, 0, Real.sqrt 2] (1 + h)) = [1 - alpha] := by
    simp only [List.range_one, List.map_cons, List.map_nil, Nat.add_zero]
    rw [v1, show 1 + 1 = 2 from rfl, v2]
    simp
  exact ⟨st', 1 - alpha, R, h1.trans (congrArg (fun r => Except.ok (st', r :: R)) hr), rfl, by linarith⟩

/-! ### Splitting a fit -/

section
variable {K : Type} [Field K]

theorem fLoop_append (c : Fcfg K) (wInit y : List K) : ∀ (is js : List Nat) (s : Work K c.d), fLoop c wInit y s (is ++ js) =
    (match fLoop c wInit y s is with
      | .error e => .error e
      | .ok (s', rs) => match fLoop c wInit y s' js with
        | .error e => .error e
        | .ok (s'', rs') => .ok (s'', rs ++ rs')) := by
  intro is
  induction is with
  | nil =>
    intro js s
    simp only [List.nil_append, fLoop]
    cases fLoop c wInit y s js with
    | error e => rfl
    | ok r => rfl
  | cons i is ih =>
    intro js s
    simp only [List.cons_append, fLoop]
    cases fStep c wInit y s i with
    | error e => rfl
    | ok r =>
      simp only
      rw [ih]
      cases fLoop c wInit y r.1 is with
      | error e => rfl
      | ok r2 =>
        simp only
        cases fLoop c wInit y r2.1 js with
        | error e => rfl
        | ok r3 => rfl

theorem fLoop_w (c : Fcfg K) (wInit y : List K) (is : List Nat) (i : Nat) (s s' : Work K c.d) (rs : List (List K))
    (h : fLoop c wInit y s (is ++ [i]) = .ok (s', rs)) : recentHistory y wInit (i + 1 - c.m) i = .ok s'.w := by
  rw [fLoop_append] at h
  cases h1 : fLoop c wInit y s is with
  | error e => rw [h1] at h; cases h
  | ok r =>
    rw [h1] at h
    simp only [fLoop] at h
    cases h2 : fStep c wInit y r.1 i with
    | error e => rw [h2] at h; cases h
    | ok q =>
      rw [h2] at h
      simp only [Except.ok.injEq, Prod.mk.injEq] at h
      rw [← h.1]
      unfold fStep at h2
      cases h3 : recentHistory y wInit (i + 1 - c.m) i with
      | error e => rw [h3] at h2; cases h2
      | ok w =>
        rw [h3] at h2
        simp only at h2
        split at h2
        · cases h2
        · simp only [Except.ok.injEq] at h2
          rw [← h2]

theorem fLoop_congr (c : Fcfg K) (w1 w2 y1 y2 : List K) (f : Nat → Nat) (is : List Nat)
    (h : ∀ i ∈ is, ∀ s, fStep c w1 y1 s (f i) = fStep c w2 y2 s i) : ∀ s, fLoop c w1 y1 s (is.map f) = fLoop c w2 y2 s is := by
  induction is with
  | nil => intro s; rfl
  | cons i is ih =>
    intro s
    simp only [List.map_cons, fLoop]
    rw [h i (by simp) s]
    cases fStep c w2 y2 s i with
    | error e => rfl
    | ok r => simp only; rw [ih (fun j hj => h j (by simp [hj]))]

theorem recentHistory_prefix {α : Type} (y z w : List α) (start i : Nat) (h : i < y.length) : recentHistory (y ++ z) w start i = recentHistory y w start i := by
  unfold recentHistory slice
  rw [List.take_append_of_le_length (by omega)]

/-- C88 (calls): when the number of samples of the first call is a multiple of the window, fitting on it and then running on
the following samples gives the forecasts and states of one run over all samples. -/
theorem C88_split (c : Fcfg K) (st st1 st2 : Fst K c.d) (y1 y2 : List K) (R1 R2 : List (List K)) (hm : 1 ≤ c.m) (hw : st.w.length = c.m)
    (hd : c.m ∣ y1.length) (h1 : fFit c st y1 = .ok (st1, R1)) (h2 : fRun c st1 y2 = .ok (st2, R2)) :
    fRun c st (y1 ++ y2) = .ok (st2, R1 ++ R2) := by
  unfold fFit fRun at h1
  unfold fRun at h2
  cases y1 with
  | nil => cases h1
  | cons a y1' =>
    cases y2 with
    | nil => cases h2
    | cons b y2' =>
      simp only at h1 h2
      set y1 := a :: y1' with hy1
      set y2 := b :: y2' with hy2
      have hl1 : y1.length = y1'.length + 1 := by rw [hy1]; rfl
      unfold fRun
      rw [hy1, List.cons_append]
      simp only
      rw [← List.cons_append, ← hy1, List.length_append, List.range_add, fLoop_append]
      have e1 : fLoop c st.w (y1 ++ y2) { x := initX c st a, w := st.w, eps := st.eps, last := st.last } (List.range y1.length) =
          fLoop c st.w y1 { x := initX c st a, w := st.w, eps := st.eps, last := st.last } (List.range y1.length) := by
        have := fLoop_congr c st.w st.w (y1 ++ y2) y1 id (List.range y1.length) (by
          intro i hi s
          unfold fStep
          simp only [id]
          rw [recentHistory_prefix _ _ _ _ _ (List.mem_range.1 hi)]) { x := initX c st a, w := st.w, eps := st.eps, last := st.last }
        rwa [List.map_id] at this
      rw [e1]
      cases hL1 : fLoop c st.w y1 { x := initX c st a, w := st.w, eps := st.eps, last := st.last } (List.range y1.length) with
      | error e => rw [hL1] at h1; cases h1
      | ok r1 =>
        obtain ⟨s1, rs1⟩ := r1
        rw [hL1] at h1
        simp only [Except.ok.injEq, Prod.mk.injEq] at h1
        obtain ⟨h1a, h1b⟩ := h1
        subst h1b
        simp only
        have hw1 := fLoop_w c st.w y1 (List.range y1'.length) y1'.length _ s1 rs1 (by rw [← List.range_succ, Nat.succ_eq_add_one, ← hl1]; exact hL1)
        have hw1' : recentHistory y1 st.w (y1.length - st.w.length) (y1.length - 1) = .ok s1.w := by
          rw [hw, hl1]; exact hw1
        have hstw : st1.w = s1.w := by rw [← h1a]
        have hlenw : s1.w.length = c.m := by
          have e := C42_window y1 st.w (y1.length - 1) (by omega) (by omega)
          rw [show y1.length - 1 + 1 = y1.length by omega, hw1'] at e
          simp only [Except.ok.injEq] at e
          rw [e, lastM, List.length_drop, List.length_append, List.length_take, hw]; omega
        have e2 : fLoop c st.w (y1 ++ y2) s1 ((List.range y2.length).map (fun (x : Nat) => y1.length + x)) = fLoop c st1.w y2 s1 (List.range y2.length) := by
          apply fLoop_congr
          intro i hi s
          have hsp := C42_split y1 y2 st.w s1.w i (by omega) (by rw [hy1]; simp) (List.mem_range.1 hi) hw1'
          rw [hlenw, hw] at hsp
          have hmod : (y1.length + i) % c.m = i % c.m := by
            obtain ⟨q, hq⟩ := hd
            rw [hq, Nat.mul_add_mod]
          unfold fStep
          rw [hstw, hsp]
          simp only [project, project', hmod]
        rw [e2]
        have hs1 : ({ x := initX c st1 b, w := st1.w, eps := st1.eps, last := st1.last } : Work K c.d) = s1 := by
          rw [← h1a]
          rfl
        rw [hs1] at h2
        cases hL2 : fLoop c st1.w y2 s1 (List.range y2.length) with
        | error e => rw [hL2] at h2; cases h2
        | ok r2 =>
          rw [hL2] at h2
          simp only [Except.ok.injEq, Prod.mk.injEq] at h2 ⊢
          obtain ⟨h2a, h2b⟩ := h2
          exact ⟨h2a, by rw [h2b]⟩

end

/-! ### The coefficients are exponentially smoothed projections -/

section
variable {K : Type} [Field K]

theorem fLoop_x (c : Fcfg K) (wInit y : List K) (hw : wInit.length = c.m) (hm : 1 ≤ c.m) : ∀ (is : List Nat) (s s' : Work K c.d) (rs : List (List K)),
    (∀ i ∈ is, i < y.length) → fLoop c wInit y s is = .ok (s', rs) →
      s'.x = is.foldl (fun x i a => c.alpha * project c i (lastM c.m (wInit ++ y.take (i + 1))) a + (1 - c.alpha) * x a) s.x := by
  intro is
  induction is with
  | nil => intro s s' rs _ h; simp only [fLoop, Except.ok.injEq, Prod.mk.injEq] at h; rw [← h.1]; rfl
  | cons i is ih =>
    intro s s' rs hi h
    simp only [fLoop] at h
    cases h1 : fStep c wInit y s i with
    | error e => rw [h1] at h; cases h
    | ok r =>
      rw [h1] at h
      simp only at h
      cases h2 : fLoop c wInit y r.1 is with
      | error e => rw [h2] at h; cases h
      | ok q =>
        rw [h2] at h
        simp only [Except.ok.injEq, Prod.mk.injEq] at h
        have := ih r.1 q.1 q.2 (fun j hj => hi j (List.mem_cons_of_mem _ hj)) h2
        rw [← h.1, this, List.foldl_cons]
        congr 1
        have hwin := C42_window y wInit i (by omega) (hi i (by simp))
        rw [hw] at hwin
        unfold fStep at h1
        rw [hwin] at h1
        simp only at h1
        split at h1
        · cases h1
        · simp only [Except.ok.injEq] at h1
          rw [← h1]

/-- C88 (coefficients): the coefficients after a run are the exponentially smoothed projections of the successive windows,
`(1-alpha)^N x₀ + Σ alpha (1-alpha)^(N-1-i) P_i`. -/
theorem C88_coefficients (c : Fcfg K) (st st' : Fst K c.d) (y0 : K) (ys : List K) (R : List (List K)) (hw : st.w.length = c.m) (hm : 1 ≤ c.m)
    (h : fRun c st (y0 :: ys) = .ok (st', R)) :
    ∃ x, st'.x = some x ∧ ∀ a, x a = (1 - c.alpha) ^ (ys.length + 1) * initX c st y0 a +
      ∑ i ∈ Finset.range (ys.length + 1), c.alpha * (1 - c.alpha) ^ (ys.length - i) * project c i (lastM c.m (st.w ++ (y0 :: ys).take (i + 1))) a := by
  unfold fRun at h
  simp only at h
  cases h1 : fLoop c st.w (y0 :: ys) { x := initX c st y0, w := st.w, eps := st.eps, last := st.last } (List.range (y0 :: ys).length) with
  | error e => rw [h1] at h; cases h
  | ok r =>
    rw [h1] at h
    simp only [Except.ok.injEq, Prod.mk.injEq] at h
    refine ⟨r.1.x, by rw [← h.1], ?_⟩
    rw [fLoop_x c st.w (y0 :: ys) hw hm _ _ r.1 r.2 (fun i hi => List.mem_range.1 hi) h1, List.length_cons]
    simp only
    have gen : ∀ (N : Nat) (P : Nat → Fin (c.d + 1) → K) (x0 : Fin (c.d + 1) → K) (a : Fin (c.d + 1)),
        (List.range (N + 1)).foldl (fun x i a => c.alpha * P i a + (1 - c.alpha) * x a) x0 a =
          (1 - c.alpha) ^ (N + 1) * x0 a + ∑ i ∈ Finset.range (N + 1), c.alpha * (1 - c.alpha) ^ (N - i) * P i a := by
      intro N
      induction N with
      | zero => intro P x0 a; simp; ring
      | succ N ih =>
        intro P x0 a
        rw [List.range_succ, List.foldl_append, List.foldl_cons, List.foldl_nil]
        rw [ih, Finset.sum_range_succ _ (N + 1), Nat.sub_self, pow_zero, mul_one]
        have : ∑ i ∈ Finset.range (N + 1), c.alpha * (1 - c.alpha) ^ (N + 1 - i) * P i a =
            (1 - c.alpha) * ∑ i ∈ Finset.range (N + 1), c.alpha * (1 - c.alpha) ^ (N - i) * P i a := by
          rw [Finset.mul_sum]
          refine Finset.sum_congr rfl (fun i hi => ?_)
          have : i ≤ N := by have := Finset.mem_range.1 hi; omega
          rw [show N + 1 - i = (N - i) + 1 by omega, pow_succ]
          ring
        rw [this]
        ring
    intro a
    exact gen ys.length (fun i => project c i (lastM c.m (st.w ++ (y0 :: ys).take (i + 1)))) (initX c st y0) a

end

/-! ### The harmonic at half the window -/

/-- Rows of the basis at the harmonic of half the window. -/
theorem nyq_proj (q : Nat) (hq : 1 ≤ q) (s : Nat) (a : Fin (2 * q + 1)) :
    ∑ r ∈ Finset.range (2 * q), raw (2 * q) q (s + r) a * (-1 : ℝ) ^ (s + r) = if a.val = 2 * q then ((2 * q : Nat) : ℝ) else 0 := by
  have hq0 : (q : ℝ) ≠ 0 := by exact_mod_cast (show q ≠ 0 by omega)
  have halt : ∀ t : Nat, (-1 : ℝ) ^ t = Real.cos (ang (2 * q) (q : ℤ) t) := by
    intro t
    rw [show ang (2 * q) (q : ℤ) t = (t : ℝ) * Real.pi by unfold ang; push_cast; field_simp, Real.cos_nat_mul_pi]
  simp only [halt]
  have ha := a.isLt
  by_cases a0 : a.val = 0
  · rw [if_neg (by omega)]
    simp only [raw, a0, if_true]
    have := (sums' (2 * q) (by omega) (q : ℤ) s).1
    rw [if_neg (by intro h; have := Int.le_of_dvd (by omega) h; push_cast at this; omega)] at this
    rw [← Finset.mul_sum, this, mul_zero]
  · obtain ⟨cc, _, sc⟩ := prod_sums (2 * q) (by omega) ((((a.val - 1) / 2 + 1 : Nat) : ℤ)) (q : ℤ) s
    by_cases ao : a.val % 2 = 1
    · rw [if_neg (by omega)]
      simp only [raw, a0, if_false, ao, if_true]
      exact sc
    · simp only [raw, a0, if_false, ao]
      rw [cc]
      by_cases e : a.val = 2 * q
      · have : (a.val - 1) / 2 + 1 = q := by omega
        rw [this, if_pos e, sub_self, if_pos (dvd_zero _), if_pos ⟨1, by push_cast; ring⟩]
        ring
      · have hlt : (a.val - 1) / 2 + 1 < q := by omega
        rw [if_neg e, if_neg, if_neg]
        · simp
        · intro h; have := Int.le_of_dvd (by omega) h; push_cast at this; omega
        · intro h
          have := Int.le_of_dvd (by omega) ((dvd_neg).2 h); push_cast at this; omega

/-- C91: with `n_harmonics ≥ m / 2` and an even window the last cosine (alternating sign) has squared norm 2 and the last sine
vanishes: the basis is not orthonormal, so projecting and reconstructing the alternating signal doubles it. -/
theorem C91_nyquist_doubled (q : Nat) (hq : 1 ≤ q) (nsa period : Nat) (alpha omega : ℝ) (i t : Nat) (v : ℝ) :
    dot (getBasis (2 * q) q t) (project (realCfg (2 * q) nsa period q alpha omega) i
      ((List.range (2 * q)).map (fun (r : Nat) => v * (-1 : ℝ) ^ (i + r)))) = 2 * (v * (-1) ^ t) := by
  have hq0 : (q : ℝ) ≠ 0 := by exact_mod_cast (show q ≠ 0 by omega)
  have hsq : Real.sqrt (2 / ((2 * q : Nat) : ℝ)) * Real.sqrt (2 / ((2 * q : Nat) : ℝ)) = 1 / q := by
    rw [Real.mul_self_sqrt (by positivity)]
    push_cast
    field_simp
  have hpr : ∀ a, project (realCfg (2 * q) nsa period q alpha omega) i ((List.range (2 * q)).map (fun (r : Nat) => v * (-1 : ℝ) ^ (i + r))) a =
      v * Real.sqrt (2 / ((2 * q : Nat) : ℝ)) * (if a.val = 2 * q then ((2 * q : Nat) : ℝ) else 0) := by
    intro (a : Fin (2 * q + 1))
    rw [← nyq_proj q hq i a, Finset.mul_sum, ← list_sum_range]
    unfold project
    congr 1
    apply List.map_congr_left
    intro r hr
    have hr' : r < 2 * q := List.mem_range.1 hr
    rw [List.getD_eq_getElem?_getD, List.getElem?_map, List.getElem?_range hr']
    have : (realCfg (2 * q) nsa period q alpha omega).B (i % (realCfg (2 * q) nsa period q alpha omega).m + r) a = getBasis (2 * q) q (i + r) a := by
      have := mod_shift (f := getBasis (2 * q) q) (m := 2 * q) (fun t => getBasis_periodic (2 * q) q (by omega) t) i r
      exact congrFun this a
    rw [this, getBasis_eq]
    simp only [Option.map_some, Option.getD_some]
    ring
  unfold dot
  have hz : ∀ a : Fin (2 * q + 1), getBasis (2 * q) q t a * project (realCfg (2 * q) nsa period q alpha omega) i
      ((List.range (2 * q)).map (fun (r : Nat) => v * (-1 : ℝ) ^ (i + r))) a = if a = Fin.last (2 * q) then 2 * (v * (-1) ^ t) else 0 := by
    intro a
    rw [hpr a]
    by_cases e : a.val = 2 * q
    · rw [if_pos e, if_pos (Fin.ext e), getBasis_eq]
      have hraw : raw (2 * q) q t a = (-1 : ℝ) ^ t := by
        unfold raw
        rw [if_neg (by omega), if_neg (by omega), show (a.val - 1) / 2 + 1 = q by omega,
          show ang (2 * q) (q : ℤ) t = (t : ℝ) * Real.pi by unfold ang; push_cast; field_simp, Real.cos_nat_mul_pi]
      rw [hraw]
      have : (-1 : ℝ) ^ t * Real.sqrt (2 / ((2 * q : Nat) : ℝ)) * (v * Real.sqrt (2 / ((2 * q : Nat) : ℝ)) * ((2 * q : Nat) : ℝ)) =
          (Real.sqrt (2 / ((2 * q : Nat) : ℝ)) * Real.sqrt (2 / ((2 * q : Nat) : ℝ))) * (v * (-1) ^ t * ((2 * q : Nat) : ℝ)) := by ring
      rw [this, hsq]
      push_cast
      field_simp
    · rw [if_neg e, if_neg (fun h => e (congrArg Fin.val h)), mul_zero, mul_zero]
  rw [Finset.sum_congr rfl (fun a _ => hz a)]
  simp

end PyF.Fast
