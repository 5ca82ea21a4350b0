import Verif.HW.Model
import Mathlib.Algebra.BigOperators.Group.Finset.Basic
import Mathlib.Tactic.Ring
import Mathlib.Tactic.Linarith
import Mathlib.Tactic.NormNum
import Mathlib.Tactic.Positivity
import Mathlib.Algebra.Order.Archimedean.Basic

/-! C303: what the forecasts of Holt-Winters remember of the states they start from. -/

namespace PyF.HW

/-- The state with `k1 + k2` more in the level, `k1` less in all entries of the first season and `k2` less in all entries of the second. -/
def Moved (k1 k2 : ℚ) (st st' : St) : Prop :=
  st'.a = st.a.map (· + (k1 + k2)) ∧ st'.b = st.b ∧ st'.s1 = st.s1.map (Option.map (· - k1)) ∧ st'.s2 = st.s2.map (Option.map (· - k2))

theorem join_map_head (k : ℚ) (l : List V) : ((l.map (Option.map (· - k))).head?).join = (l.head?).join.map (· - k) := by
  cases l with
  | nil => rfl
  | cons x xs => cases x <;> rfl

theorem join_map_get (k : ℚ) (l : List V) (i : Nat) : ((l.map (Option.map (· - k)))[i]?).join = (l[i]?).join.map (· - k) := by
  rw [List.getElem?_map]
  cases l[i]? with
  | none => rfl
  | some x => cases x <;> rfl

theorem forecasts_moved (c : Cfg) (k1 k2 : ℚ) {st st' : St} (h1 : 1 ≤ c.p1) (h : Moved k1 k2 st st') : forecasts c st' = forecasts c st := by
  obtain ⟨ha, hb, hs1, hs2⟩ := h
  unfold forecasts
  refine List.map_congr_left fun i _ => ?_
  rw [ha, hb, hs1, hs2, join_map_get, join_map_get]
  rcases st.a with _ | a <;> rcases st.b with _ | b <;> rcases (st.s1[i % c.p1]?).join with _ | x <;> rcases (st.s2[i % c.p2]?).join with _ | y <;> simp [vadd, cmul]
  ring

theorem step_moved (c : Cfg) (p : Pars) (hst : c.store = id) (hlo : c.lo = none) (hhi : c.hi = none) (k1 k2 : ℚ) {st st' : St} (h : Moved k1 k2 st st') (y : V) :
    Moved k1 k2 (step c p st y) (step c p st' y) := by
  obtain ⟨ha, hb, hs1, hs2⟩ := h
  have hc : ∀ x, c.store (clip c x) = x := fun x => by simp [hst, clip, hlo, hhi]
  have e1 := join_map_head k1 st.s1
  have e2 := join_map_head k2 st.s2
  rw [← hs1] at e1
  rw [← hs2] at e2
  have hA : (step c p st' y).a = (step c p st y).a.map (· + (k1 + k2)) := by
    unfold step
    simp only
    rw [e1, e2, ha, hb]
    rcases y with _ | y <;> rcases st.a with _ | a <;> rcases st.b with _ | b <;> rcases (st.s1.head?).join with _ | x <;> rcases (st.s2.head?).join with _ | z <;> simp [vadd, vsub, cmul]
    ring
  refine ⟨hA, ?_, ?_, ?_⟩
  · unfold step
    simp only
    rw [e1, e2, ha, hb]
    rcases y with _ | y <;> rcases st.a with _ | a <;> rcases st.b with _ | b <;> rcases (st.s1.head?).join with _ | x <;> rcases (st.s2.head?).join with _ | z <;> simp [vadd, vsub, cmul]
    exact Or.inl (by ring)
  · unfold step
    simp only [hc, Option.map_id']
    rw [e1, e2, ha, hb, hs1, List.map_append, ← List.map_tail]
    congr 1
    rw [List.map_cons, List.map_nil]
    congr 1
    rcases y with _ | y <;> rcases st.a with _ | a <;> rcases st.b with _ | b <;> rcases (st.s1.head?).join with _ | x <;> rcases (st.s2.head?).join with _ | z <;> simp [vadd, vsub, cmul]
    ring
  · unfold step
    simp only [hc, Option.map_id']
    rw [e1, e2, ha, hb, hs2, List.map_append, ← List.map_tail]
    congr 1
    rw [List.map_cons, List.map_nil]
    congr 1
    rcases y with _ | y <;> rcases st.a with _ | a <;> rcases st.b with _ | b <;> rcases (st.s1.head?).join with _ | x <;> rcases (st.s2.head?).join with _ | z <;> simp [vadd, vsub, cmul]
    ring

theorem runLoop_moved (c : Cfg) (p : Pars) (h1 : 1 ≤ c.p1) (hst : c.store = id) (hlo : c.lo = none) (hhi : c.hi = none) (k1 k2 : ℚ) (Y : List V) :
    ∀ {st st' : St}, Moved k1 k2 st st' → (runLoop c p st' Y).2 = (runLoop c p st Y).2 ∧ Moved k1 k2 (runLoop c p st Y).1 (runLoop c p st' Y).1 := by
  induction Y with
  | nil => intro st st' h; exact ⟨rfl, h⟩
  | cons y ys ih =>
    intro st st' h
    have hs := step_moved c p hst hlo hhi k1 k2 h y
    obtain ⟨i1, i2⟩ := ih hs
    refine ⟨?_, i2⟩
    show forecasts c (step c p st' y) :: _ = forecasts c (step c p st y) :: _
    rw [forecasts_moved c k1 k2 h1 hs, i1]

/-- Known states: no NaN, at least one entry in each season. -/
def Known (st : St) : Prop := st.a.isSome ∧ st.b.isSome ∧ st.s1.any (fun v => v.isSome) ∧ st.s2.any (fun v => v.isSome)

theorem start_known (c : Cfg) {st : St} (h : Known st) (l : V) : start c st l = st := by
  obtain ⟨ha, hb, h1, h2⟩ := h
  have hn : ∀ s : List V, s.any (fun v => v.isSome) → ¬ s.all (fun v => v.isNone) := by
    intro s hs ha
    obtain ⟨v, hv, hv'⟩ := List.any_eq_true.1 hs
    have := List.all_eq_true.1 ha v hv
    cases v <;> simp_all
  unfold start seasonInit
  rw [if_neg (hn _ h1), if_neg (hn _ h2)]
  rcases st with ⟨a, b, s1, s2⟩
  cases a <;> cases b <;> simp_all

theorem known_moved {k1 k2 : ℚ} {st st' : St} (h : Known st) (m : Moved k1 k2 st st') : Known st' := by
  obtain ⟨ha, hb, h1, h2⟩ := h
  obtain ⟨ma, mb, m1, m2⟩ := m
  refine ⟨by rw [ma]; simpa using ha, by rw [mb]; exact hb, ?_, ?_⟩
  · rw [m1, List.any_map]; simpa [Function.comp_def] using h1
  · rw [m2, List.any_map]; simpa [Function.comp_def] using h2

/-- C303 (ambiguity): without constraints, a constant moved from the seasons to the level is never noticed: `predict` gives the same forecasts, whatever is observed, and the constant stays in the states. -/
theorem C303_ambiguity (c : Cfg) (p : Pars) (h1 : 1 ≤ c.p1) (hst : c.store = id) (hlo : c.lo = none) (hhi : c.hi = none) (k1 k2 : ℚ) (st st' : St) (hk : Known st) (m : Moved k1 k2 st st') (Y : List V) (hY : Y ≠ []) :
    ∃ r r' P, predict c p st Y = .ok (r, P) ∧ predict c p st' Y = .ok (r', P) ∧ Moved k1 k2 r r' := by
  unfold predict
  rw [if_neg hY, if_neg hY]
  unfold run
  rw [List.getLast?_eq_some_getLast hY]
  simp only
  rw [start_known c hk, start_known c (known_moved hk m)]
  obtain ⟨e, mm⟩ := runLoop_moved c { p with beta := 0 } h1 hst hlo hhi k1 k2 Y m
  exact ⟨_, _, _, rfl, by rw [← e], mm⟩

/-! ### Forgetting -/

/-- The states as numbers: level, trend and seasons. -/
def num (a b : ℚ) (s1 s2 : List ℚ) : St := { a := some a, b := some b, s1 := s1.map some, s2 := s2.map some }

/-- The level after some observations when the seasons are not learnt: difference of two levels. -/
theorem step_fixed (c : Cfg) (p : Pars) (hst : c.store = id) (hlo : c.lo = none) (hhi : c.hi = none) (hb : p.beta = 0) (hg1 : p.g1 = 0) (hg2 : p.g2 = 0)
    (a b x z : ℚ) (s1 s2 : List ℚ) (y : ℚ) :
    step c p (num a b (x :: s1) (z :: s2)) (some y) = num (p.alpha * (y - x - z) + (1 - p.alpha) * (a + b)) b (s1 ++ [x]) (s2 ++ [z]) := by
  have hc : ∀ x, c.store (clip c x) = x := fun x => by simp [hst, clip, hlo, hhi]
  simp [step, num, hb, hg1, hg2, vadd, vsub, cmul, hc]

theorem runLoop_gap (c : Cfg) (p : Pars) (hst : c.store = id) (hlo : c.lo = none) (hhi : c.hi = none) (hb : p.beta = 0) (hg1 : p.g1 = 0) (hg2 : p.g2 = 0) (ys : List ℚ) :
    ∀ (a a' b b' : ℚ) (s1 s2 : List ℚ), s1 ≠ [] → s2 ≠ [] → ∃ u t1 t2, t1.length = s1.length ∧ t2.length = s2.length ∧ (runLoop c p (num a b s1 s2) (ys.map some)).1 = num u b t1 t2 ∧
      (runLoop c p (num a' b' s1 s2) (ys.map some)).1 = num (u + ((1 - p.alpha) ^ ys.length * (a' - a) + (∑ i ∈ Finset.range ys.length, (1 - p.alpha) ^ (i + 1)) * (b' - b))) b' t1 t2 := by
  induction ys with
  | nil =>
    intro a a' b b' s1 s2 h1 h2
    exact ⟨a, s1, s2, rfl, rfl, rfl, by simp [runLoop]⟩
  | cons y ys ih =>
    intro a a' b b' s1 s2 h1 h2
    obtain ⟨x, s1, rfl⟩ := List.exists_cons_of_ne_nil h1
    obtain ⟨z, s2, rfl⟩ := List.exists_cons_of_ne_nil h2
    obtain ⟨u, t1, t2, n1, n2, e1, e2⟩ := ih (p.alpha * (y - x - z) + (1 - p.alpha) * (a + b)) (p.alpha * (y - x - z) + (1 - p.alpha) * (a' + b')) b b' (s1 ++ [x]) (s2 ++ [z]) (by simp) (by simp)
    refine ⟨u, t1, t2, by simpa using n1, by simpa using n2, ?_, ?_⟩
    · show (runLoop c p (step c p (num a b (x :: s1) (z :: s2)) (some y)) (ys.map some)).1 = _
      rw [step_fixed c p hst hlo hhi hb hg1 hg2]
      exact e1
    · show (runLoop c p (step c p (num a' b' (x :: s1) (z :: s2)) (some y)) (ys.map some)).1 = _
      rw [step_fixed c p hst hlo hhi hb hg1 hg2]
      rw [e2]
      congr 1
      rw [List.length_cons, Finset.sum_range_succ, pow_succ]
      ring

theorem predict_num (c : Cfg) (p : Pars) (a b : ℚ) (s1 s2 : List ℚ) (h1 : s1 ≠ []) (h2 : s2 ≠ []) (Y : List V) (hY : Y ≠ []) :
    predict c p (num a b s1 s2) Y = .ok (runLoop c { p with beta := 0 } (num a b s1 s2) Y) := by
  unfold predict
  rw [if_neg hY]
  unfold run
  rw [List.getLast?_eq_some_getLast hY]
  simp only
  rw [start_known c ⟨rfl, rfl, by obtain ⟨x, l, rfl⟩ := List.exists_cons_of_ne_nil h1; rfl, by obtain ⟨x, l, rfl⟩ := List.exists_cons_of_ne_nil h2; rfl⟩]

theorem runLoop_last (c : Cfg) (p : Pars) (Y : List V) : ∀ (st : St), Y ≠ [] → (runLoop c p st Y).2.getLast? = some (forecasts c (runLoop c p st Y).1) := by
  induction Y with
  | nil => intro st h; exact absurd rfl h
  | cons y ys ih =>
    intro st _
    show (forecasts c (step c p st y) :: (runLoop c p (step c p st y) ys).2).getLast? = some (forecasts c (runLoop c p (step c p st y) ys).1)
    by_cases hys : ys = []
    · subst hys; rfl
    · have := ih (step c p st y) hys
      rw [List.getLast?_cons, this]
      rfl

theorem forecasts_num (c : Cfg) (a b : ℚ) (t1 t2 : List ℚ) (h : Nat) (hh : h < c.nsa) (g1 : h % c.p1 < t1.length) (g2 : h % c.p2 < t2.length) :
    (forecasts c (num a b t1 t2))[h]? = some (some (a + ((h : ℚ) + 1) * b + t1[h % c.p1] + t2[h % c.p2])) := by
  have e1' : (((t1.map some)[h % c.p1]? : Option V)).join = some t1[h % c.p1] := by rw [List.getElem?_map, List.getElem?_eq_getElem g1]; rfl
  have e2' : (((t2.map some)[h % c.p2]? : Option V)).join = some t2[h % c.p2] := by rw [List.getElem?_map, List.getElem?_eq_getElem g2]; rfl
  unfold forecasts
  rw [List.getElem?_map, List.getElem?_range hh]
  simp only [Option.map_some, num, e1', e2', vadd, cmul]

/-- C303 (forgetting): seasons not learnt (`gamma` zero), same seasons at the start: after `n` observations the forecasts for step `h` from two levels and trends differ by `(1-α)^n` times the gap of the levels plus the gap of the trends times
`h + Σ_{i=1..n} (1-α)^i`, whatever is observed. -/
theorem C303_gap (c : Cfg) (p : Pars) (hst : c.store = id) (hlo : c.lo = none) (hhi : c.hi = none) (hg1 : p.g1 = 0) (hg2 : p.g2 = 0) (a a' b b' : ℚ) (s1 s2 : List ℚ) (h1 : s1.length = c.p1) (h2 : s2.length = c.p2) (hp1 : 1 ≤ c.p1) (hp2 : 1 ≤ c.p2)
    (y : List ℚ) (hy : y ≠ []) :
    ∃ r r' P Q f g, predict c p (num a b s1 s2) (y.map some) = .ok (r, P) ∧ predict c p (num a' b' s1 s2) (y.map some) = .ok (r', Q) ∧ P.getLast? = some f ∧ Q.getLast? = some g ∧
      ∀ h : Nat, h < c.nsa → ∃ u v : ℚ, f[h]? = some (some u) ∧ g[h]? = some (some v) ∧
        v - u = (1 - p.alpha) ^ y.length * (a' - a) + ((h : ℚ) + 1 + ∑ i ∈ Finset.range y.length, (1 - p.alpha) ^ (i + 1)) * (b' - b) := by
  have hY : y.map some ≠ [] := by simpa using hy
  have m1 : s1 ≠ [] := List.ne_nil_of_length_pos (by omega)
  have m2 : s2 ≠ [] := List.ne_nil_of_length_pos (by omega)
  obtain ⟨w, t1, t2, n1, n2, e1, e2⟩ := runLoop_gap c { p with beta := 0 } hst hlo hhi rfl hg1 hg2 y a a' b b' s1 s2 m1 m2
  have l1 := runLoop_last c { p with beta := 0 } (y.map some) (num a b s1 s2) hY
  have l2 := runLoop_last c { p with beta := 0 } (y.map some) (num a' b' s1 s2) hY
  rw [e1] at l1
  rw [e2] at l2
  refine ⟨_, _, _, _, _, _, predict_num c p a b s1 s2 m1 m2 _ hY, predict_num c p a' b' s1 s2 m1 m2 _ hY, l1, l2, ?_⟩
  intro h hh
  have g1 : h % c.p1 < t1.length := by rw [n1, h1]; exact Nat.mod_lt _ hp1
  have g2 : h % c.p2 < t2.length := by rw [n2, h2]; exact Nat.mod_lt _ hp2
  refine ⟨_, _, forecasts_num c w b t1 t2 h hh g1 g2, forecasts_num c _ b' t1 t2 h hh g1 g2, ?_⟩
  ring

/-- C303 (limit): with a smoothing of the level strictly between 0 and 2 a gap of the levels alone dies out. -/
theorem C303_forgotten (c : Cfg) (p : Pars) (hst : c.store = id) (hlo : c.lo = none) (hhi : c.hi = none) (hg1 : p.g1 = 0) (hg2 : p.g2 = 0) (h0 : 0 < p.alpha) (h2' : p.alpha < 2) (s1 s2 : List ℚ) (h1 : s1.length = c.p1) (h2 : s2.length = c.p2)
    (hp1 : 1 ≤ c.p1) (hp2 : 1 ≤ c.p2) (a a' b e : ℚ) (he : 0 < e) :
    ∃ N : Nat, ∀ y : List ℚ, y ≠ [] → N ≤ y.length →
      ∃ r r' P Q f g, predict c p (num a b s1 s2) (y.map some) = .ok (r, P) ∧ predict c p (num a' b s1 s2) (y.map some) = .ok (r', Q) ∧ P.getLast? = some f ∧ Q.getLast? = some g ∧
        ∀ h : Nat, h < c.nsa → ∃ u v : ℚ, f[h]? = some (some u) ∧ g[h]? = some (some v) ∧ |v - u| < e := by
  have hr : |1 - p.alpha| < 1 := abs_lt.2 ⟨by linarith, by linarith⟩
  obtain ⟨N, hN⟩ := exists_pow_lt_of_lt_one (show (0 : ℚ) < e / (|a' - a| + 1) by positivity) hr
  refine ⟨N, fun y hy hl => ?_⟩
  obtain ⟨r, r', P, Q, f, g, e1, e2, e3, e4, hg⟩ := C303_gap c p hst hlo hhi hg1 hg2 a a' b b s1 s2 h1 h2 hp1 hp2 y hy
  refine ⟨r, r', P, Q, f, g, e1, e2, e3, e4, fun h hh => ?_⟩
  obtain ⟨u, v, eu, ev, hd⟩ := hg h hh
  refine ⟨u, v, eu, ev, ?_⟩
  rw [hd, sub_self, mul_zero, add_zero, abs_mul, abs_pow]
  have hp : |1 - p.alpha| ^ y.length ≤ |1 - p.alpha| ^ N := pow_le_pow_of_le_one (abs_nonneg _) hr.le hl
  have h3 : |1 - p.alpha| ^ y.length < e / (|a' - a| + 1) := lt_of_le_of_lt hp hN
  have h4 : (0 : ℚ) < |a' - a| + 1 := by positivity
  rw [lt_div_iff₀ h4] at h3
  have h5 : 0 ≤ |1 - p.alpha| ^ y.length := by positivity
  nlinarith

end PyF.HW
