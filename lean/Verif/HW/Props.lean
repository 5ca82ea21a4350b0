import Verif.HW.Model
import Mathlib.Tactic.Ring
import Mathlib.Tactic.Linarith
import Mathlib.Tactic.FieldSimp
import Mathlib.Tactic.Set

namespace PyF.HW

@[simp] theorem vadd_some (a b : ℚ) : vadd (some a) (some b) = some (a + b) := rfl
@[simp] theorem vsub_some (a b : ℚ) : vsub (some a) (some b) = some (a - b) := rfl
@[simp] theorem cmul_some (c a : ℚ) : cmul c (some a) = some (c * a) := rfl
@[simp] theorem cmul_none (c : ℚ) : cmul c none = none := rfl
@[simp] theorem vadd_none_left (b : V) : vadd none b = none := rfl
@[simp] theorem vadd_none_right (a : V) : vadd a none = none := by cases a <;> rfl
@[simp] theorem vsub_none_left (b : V) : vsub none b = none := rfl
@[simp] theorem vsub_none_right (a : V) : vsub a none = none := by cases a <;> rfl

/-- No NaN anywhere, and both seasonal arrays have their length. -/
structure Live (c : Cfg) (st : St) : Prop where
  a : st.a.isSome
  b : st.b.isSome
  l1 : st.s1.length = c.p1
  l2 : st.s2.length = c.p2
  s1 : ∀ v ∈ st.s1, v.isSome
  s2 : ∀ v ∈ st.s2, v.isSome
  pos1 : 1 ≤ c.p1
  pos2 : 1 ≤ c.p2

theorem head_some {l : List V} {p : Nat} (hl : l.length = p) (hp : 1 ≤ p) (h : ∀ v ∈ l, v.isSome) : ∃ x, l.head?.join = some x := by
  cases l with
  | nil => simp at hl; omega
  | cons v t =>
    have := h v (by simp)
    obtain ⟨x, rfl⟩ := Option.isSome_iff_exists.1 this
    exact ⟨x, rfl⟩

theorem Live.step {c : Cfg} {st : St} (h : Live c st) (p : Pars) (y : V) (hy : y.isSome) : Live c (step c p st y) := by
  obtain ⟨x, rfl⟩ := Option.isSome_iff_exists.1 hy
  obtain ⟨a, ha⟩ := Option.isSome_iff_exists.1 h.a
  obtain ⟨b, hb⟩ := Option.isSome_iff_exists.1 h.b
  obtain ⟨u, hu⟩ := head_some h.l1 h.pos1 h.s1
  obtain ⟨v, hv⟩ := head_some h.l2 h.pos2 h.s2
  have hp1 := h.pos1
  have hp2 := h.pos2
  constructor
  · simp [HW.step, ha, hb, hu, hv]
  · simp [HW.step, ha, hb, hu, hv]
  · simp [HW.step, h.l1]; omega
  · simp [HW.step, h.l2]; omega
  · intro w hw
    simp only [HW.step, List.mem_append, List.mem_singleton] at hw
    rcases hw with hw | rfl
    · exact h.s1 w (List.mem_of_mem_tail hw)
    · simp [ha, hb, hu, hv]
  · intro w hw
    simp only [HW.step, List.mem_append, List.mem_singleton] at hw
    rcases hw with hw | rfl
    · exact h.s2 w (List.mem_of_mem_tail hw)
    · simp [ha, hb, hu, hv]
  · exact h.pos1
  · exact h.pos2

theorem Live.run {c : Cfg} (p : Pars) (Y : List V) (hY : ∀ y ∈ Y, y.isSome) {st : St} (h : Live c st) :
    Live c (runLoop c p st Y).1 := by
  induction Y generalizing st with
  | nil => exact h
  | cons y Y ih => exact ih (fun z hz => hY z (by simp [hz])) (h.step p y (hY y (by simp)))

theorem season_live {p : Nat} {s : List V} (hl : s.length = p) (hp : 1 ≤ p) (h : ∀ v ∈ s, v.isSome) (l : V) :
    seasonInit p s l = s := by
  unfold seasonInit
  rw [if_neg]
  intro ha
  rw [List.all_eq_true] at ha
  cases s with
  | nil => simp at hl; omega
  | cons v t =>
    have h1 := ha v (by simp)
    have h2 := h v (by simp)
    cases v <;> simp_all

theorem Live.start {c : Cfg} {st : St} (h : Live c st) (l : V) : HW.start c st l = st := by
  obtain ⟨a, ha⟩ := Option.isSome_iff_exists.1 h.a
  obtain ⟨b, hb⟩ := Option.isSome_iff_exists.1 h.b
  cases st
  simp only at ha hb
  subst ha hb
  simp only [HW.start, Option.getD_some, season_live h.l1 h.pos1 h.s1, season_live h.l2 h.pos2 h.s2]

theorem runLoop_append (c : Cfg) (p : Pars) (st : St) (Y Z : List V) :
    runLoop c p st (Y ++ Z) = ((runLoop c p (runLoop c p st Y).1 Z).1, (runLoop c p st Y).2 ++ (runLoop c p (runLoop c p st Y).1 Z).2) := by
  induction Y generalizing st with
  | nil => simp [runLoop]
  | cons y Y ih => simp [runLoop, ih]

theorem runLoop_length (c : Cfg) (p : Pars) (st : St) (Y : List V) : (runLoop c p st Y).2.length = Y.length := by
  induction Y generalizing st with
  | nil => rfl
  | cons y Y ih => simp [runLoop, ih]

theorem predict_eq (c : Cfg) (p : Pars) (st : St) (Y : List V) (h : Y ≠ []) :
    predict c p st Y = .ok (runLoop c { p with beta := 0 } (start c st (Y.getLast h)) Y) := by
  unfold predict run
  rw [if_neg h, List.getLast?_eq_some_getLast h]

/-- Consecutive calls of `predict`. -/
def serve (c : Cfg) (p : Pars) : St → List (List V) → Except PyErr (St × List (List V))
  | st, [] => .ok (st, [])
  | st, Y :: Ys =>
    match predict c p st Y with
    | .error e => .error e
    | .ok (st', R) =>
      match serve c p st' Ys with
      | .error e => .error e
      | .ok (st'', Rs) => .ok (st'', R ++ Rs)

/-- C37: once the states are initialised and as long as no observation is missing, it does not matter how the observations
are distributed over calls: any sequence of non-empty calls gives the forecasts and final states of one call with all of
them. -/
theorem C37_calls_can_be_split (c : Cfg) (p : Pars) (st : St) (h : Live c st) (Ys : List (List V)) (hne : ∀ Y ∈ Ys, Y ≠ [])
    (hY : ∀ Y ∈ Ys, ∀ y ∈ Y, y.isSome) (hYs : Ys ≠ []) :
    ∃ st' R, serve c p st Ys = .ok (st', R) ∧ predict c p st Ys.flatten = .ok (st', R) ∧ R.length = Ys.flatten.length ∧ Live c st' := by
  have key : ∀ (Ys : List (List V)) (st : St), Live c st → (∀ Y ∈ Ys, Y ≠ []) → (∀ Y ∈ Ys, ∀ y ∈ Y, y.isSome) →
      serve c p st Ys = .ok (runLoop c { p with beta := 0 } st Ys.flatten) := by
    intro Ys
    induction Ys with
    | nil => intro st _ _ _; rfl
    | cons Y Ys ih =>
      intro st h hne hY
      unfold serve
      rw [predict_eq c p st Y (hne Y (by simp)), h.start]
      simp only
      rw [ih _ (h.run _ Y (hY Y (by simp))) (fun Z hZ => hne Z (by simp [hZ])) (fun Z hZ => hY Z (by simp [hZ]))]
      simp only
      rw [List.flatten_cons, runLoop_append]
  have hflat : Ys.flatten ≠ [] := by
    intro e
    obtain ⟨Y, hm⟩ := List.exists_mem_of_ne_nil Ys hYs
    exact hne Y hm (List.flatten_eq_nil_iff.1 e Y hm)
  refine ⟨_, _, key Ys st h hne hY, ?_, runLoop_length _ _ _ _, ?_⟩
  · rw [predict_eq c p st _ hflat, h.start]
  · apply h.run
    intro y hy
    obtain ⟨Z, hZ, hyZ⟩ := List.mem_flatten.1 hy
    exact hY Z hZ y hyZ

/-- The first forecast of the first row of a first call. -/
theorem first_forecast (c : Cfg) (p : Pars) (h1 : 2 ≤ c.p1) (h2 : 2 ≤ c.p2) (hn : 1 ≤ c.nsa) (y : ℚ) (Z : List V) (L : ℚ)
    (hL : (some y :: Z).getLast? = some (some L)) :
    ∃ st' r R, predict c p (fresh c) (some y :: Z) = .ok (st', r :: R) ∧ r[0]? = some (some (p.alpha * y + 2 * (1 - p.alpha) * L)) := by
  have hlast : (some y :: Z).getLast (by simp) = some L := by
    rw [List.getLast?_eq_some_getLast (by simp)] at hL
    exact Option.some.inj hL
  rw [predict_eq c p (fresh c) _ (by simp), hlast]
  have hs : HW.start c (fresh c) (some L) =
      { a := some 0, b := some 0, s1 := List.replicate c.p1 (some L), s2 := List.replicate c.p2 (some L) } := by
    simp [HW.start, fresh, seasonInit]
  rw [hs]
  refine ⟨_, _, _, rfl, ?_⟩
  obtain ⟨q1, hq1⟩ : ∃ q, c.p1 = q + 2 := ⟨c.p1 - 2, by omega⟩
  obtain ⟨q2, hq2⟩ : ∃ q, c.p2 = q + 2 := ⟨c.p2 - 2, by omega⟩
  unfold forecasts
  rw [List.getElem?_map, List.getElem?_range (by omega)]
  simp only [HW.step, hq1, hq2, List.replicate_succ, List.head?_cons, List.tail_cons, Option.join_some, vsub_some, vadd_some,
    cmul_some, Option.map_some, Nat.zero_mod, List.cons_append, List.getElem?_cons_zero, Option.some.injEq]
  push_cast
  ring

/-- C37 (limit): the first call of a new object initialises both seasonal arrays with the *last* observation of the call.
Unless `alpha = 1`, two first calls that begin alike but end differently already differ in the first forecast of the first
row, which therefore depends on later observations and on where the data were cut. -/
theorem C37_first_call_looks_ahead (c : Cfg) (p : Pars) (h1 : 2 ≤ c.p1) (h2 : 2 ≤ c.p2) (hn : 1 ≤ c.nsa) (hα : p.alpha ≠ 1) (y : ℚ)
    (Z Z' : List V) (L L' : ℚ) (hL : (some y :: Z).getLast? = some (some L)) (hL' : (some y :: Z').getLast? = some (some L'))
    (hne : L ≠ L') :
    ∃ st1 r1 R1 st2 r2 R2, predict c p (fresh c) (some y :: Z) = .ok (st1, r1 :: R1) ∧
      predict c p (fresh c) (some y :: Z') = .ok (st2, r2 :: R2) ∧ r1[0]? ≠ r2[0]? := by
  obtain ⟨st1, r1, R1, e1, f1⟩ := first_forecast c p h1 h2 hn y Z L hL
  obtain ⟨st2, r2, R2, e2, f2⟩ := first_forecast c p h1 h2 hn y Z' L' hL'
  refine ⟨st1, r1, R1, st2, r2, R2, e1, e2, ?_⟩
  rw [f1, f2]
  intro he
  simp only [Option.some.injEq] at he
  have h3 : (1 - p.alpha) * (L - L') = 0 := by linarith
  rcases mul_eq_zero.1 h3 with h4 | h4
  · exact hα (by linarith)
  · exact hne (by linarith)

/-! ### C38 -/

/-- A noiseless signal: line plus two seasonal components. -/
structure Signal (c : Cfg) where
  level : ℚ
  slope : ℚ
  S1 : Nat → ℚ
  S2 : Nat → ℚ
  per1 : ∀ t, S1 (t + c.p1) = S1 t
  per2 : ∀ t, S2 (t + c.p2) = S2 t

/-- Its value at time `t`. -/
def Signal.at {c : Cfg} (s : Signal c) (t : Nat) : ℚ := s.level + s.slope * t + s.S1 t + s.S2 t

/-- The states describe the signal after time `t`. -/
def Agree {c : Cfg} (s : Signal c) (st : St) (t : Nat) : Prop :=
  st.a = some (s.level + s.slope * t) ∧ st.b = some s.slope ∧
    st.s1 = (List.range c.p1).map (fun (k : Nat) => some (s.S1 (t + 1 + k))) ∧ st.s2 = (List.range c.p2).map (fun (k : Nat) => some (s.S2 (t + 1 + k)))

theorem range_shift {f : Nat → V} {p : Nat} (hp : 1 ≤ p) (hper : f p = f 0) :
    ((List.range p).map f).tail ++ [f 0] = (List.range p).map (fun (k : Nat) => f (k + 1)) := by
  obtain ⟨q, rfl⟩ : ∃ q, p = q + 1 := ⟨p - 1, by omega⟩
  rw [List.range_succ_eq_map, List.map_cons, List.tail_cons, List.map_map, ← List.range_succ_eq_map, List.range_succ, List.map_append]
  simp only [List.map_cons, List.map_nil, hper]
  rfl

theorem agree_step {c : Cfg} (s : Signal c) (p : Pars) (h1 : 1 ≤ c.p1) (h2 : 1 ≤ c.p2) (st : St) (t : Nat)
    (hk1 : ∀ t, c.store (clip c (s.S1 t)) = s.S1 t) (hk2 : ∀ t, c.store (clip c (s.S2 t)) = s.S2 t) (h : Agree s st t) :
    Agree s (step c p st (some (s.at (t + 1)))) (t + 1) := by
  obtain ⟨ha, hb, hs1, hs2⟩ := h
  have hh1 : st.s1.head?.join = some (s.S1 (t + 1)) := by
    rw [hs1]
    obtain ⟨q, hq⟩ : ∃ q, c.p1 = q + 1 := ⟨c.p1 - 1, by omega⟩
    rw [hq, List.range_succ_eq_map]
    rfl
  have hh2 : st.s2.head?.join = some (s.S2 (t + 1)) := by
    rw [hs2]
    obtain ⟨q, hq⟩ : ∃ q, c.p2 = q + 1 := ⟨c.p2 - 1, by omega⟩
    rw [hq, List.range_succ_eq_map]
    rfl
  have haa : p.alpha * (s.at (t + 1) - s.S1 (t + 1) - s.S2 (t + 1)) + (1 - p.alpha) * (s.level + s.slope * t + s.slope) =
      s.level + s.slope * ((t + 1 : Nat) : ℚ) := by
    unfold Signal.at; push_cast; ring
  refine ⟨?_, ?_, ?_, ?_⟩
  · simp only [HW.step, ha, hb, hh1, hh2, vsub_some, vadd_some, cmul_some]
    rw [haa]
  · simp only [HW.step, ha, hb, hh1, hh2, vsub_some, vadd_some, cmul_some]
    rw [haa]
    congr 1
    push_cast
    ring
  · simp only [HW.step, ha, hb, hh1, hh2, vsub_some, vadd_some, cmul_some, Option.map_some]
    rw [haa]
    have : p.g1 * (s.at (t + 1) - (s.level + s.slope * ((t + 1 : Nat) : ℚ)) - s.S2 (t + 1)) + (1 - p.g1) * s.S1 (t + 1) = s.S1 (t + 1) := by
      unfold Signal.at; push_cast; ring
    rw [this, hk1, hs1]
    have := range_shift (f := fun k => some (s.S1 (t + 1 + k))) h1 (by simp [s.per1])
    simp only [Nat.add_zero] at this
    rw [this]
    apply List.map_congr_left
    intro k _
    congr 2
    omega
  · simp only [HW.step, ha, hb, hh1, hh2, vsub_some, vadd_some, cmul_some, Option.map_some]
    rw [haa]
    have : p.g2 * (s.at (t + 1) - (s.level + s.slope * ((t + 1 : Nat) : ℚ)) - s.S1 (t + 1)) + (1 - p.g2) * s.S2 (t + 1) = s.S2 (t + 1) := by
      unfold Signal.at; push_cast; ring
    rw [this, hk2, hs2]
    have := range_shift (f := fun k => some (s.S2 (t + 1 + k))) h2 (by simp [s.per2])
    simp only [Nat.add_zero] at this
    rw [this]
    apply List.map_congr_left
    intro k _
    congr 2
    omega

theorem per_mod {f : Nat → ℚ} {p : Nat} (hper : ∀ t, f (t + p) = f t) (t k : Nat) : f (t + k % p) = f (t + k) := by
  have : ∀ m t, f (t + m * p) = f t := by
    intro m
    induction m with
    | zero => intro t; simp
    | succ m ih => intro t; rw [Nat.succ_mul, ← Nat.add_assoc, hper, ih]
  conv_rhs => rw [← Nat.mod_add_div k p, ← Nat.add_assoc, Nat.mul_comm, this]

theorem agree_forecasts {c : Cfg} (s : Signal c) (h1 : 1 ≤ c.p1) (h2 : 1 ≤ c.p2) (st : St) (t : Nat) (h : Agree s st t) :
    forecasts c st = (List.range c.nsa).map (fun (i : Nat) => some (s.at (t + 1 + i))) := by
  obtain ⟨ha, hb, hs1, hs2⟩ := h
  unfold forecasts
  apply List.map_congr_left
  intro i _
  rw [ha, hb, hs1, hs2, List.getElem?_map, List.getElem?_map, List.getElem?_range (Nat.mod_lt _ (by omega)),
    List.getElem?_range (Nat.mod_lt _ (by omega))]
  simp only [Option.map_some, Option.join_some, cmul_some, vadd_some, Option.some.injEq]
  rw [per_mod s.per1, per_mod s.per2]
  unfold Signal.at
  push_cast
  ring

/-- C38: if the states describe a noiseless signal (line plus two seasonal components within the constraints) after time `t`,
then while the signal is observed every forecast at every step is exact and the states keep describing it, whatever the
smoothing parameters and the number of observations. -/
theorem C38_exact_on_seasonal_signal {c : Cfg} (s : Signal c) (p : Pars) (h1 : 1 ≤ c.p1) (h2 : 1 ≤ c.p2) (hst : c.store = id)
    (hk1 : ∀ t, (∀ l, c.lo = some l → l ≤ s.S1 t) ∧ (∀ u, c.hi = some u → s.S1 t ≤ u))
    (hk2 : ∀ t, (∀ l, c.lo = some l → l ≤ s.S2 t) ∧ (∀ u, c.hi = some u → s.S2 t ≤ u))
    (st : St) (t n : Nat) (h : Agree s st t) :
    ∃ st', run c p st ((List.range (n + 1)).map (fun (k : Nat) => some (s.at (t + 1 + k)))) = .ok (st',
        (List.range (n + 1)).map (fun (k : Nat) => (List.range c.nsa).map (fun (i : Nat) => some (s.at (t + 1 + k + 1 + i))))) ∧
      Agree s st' (t + 1 + n) := by
  have hc : ∀ x : ℚ, (∀ l, c.lo = some l → l ≤ x) ∧ (∀ u, c.hi = some u → x ≤ u) → c.store (clip c x) = x := by
    rintro x ⟨ha, hb⟩
    rw [hst]
    unfold clip
    cases hlo : c.lo <;> cases hhi : c.hi <;> simp only [id]
    · exact min_eq_left (hb _ hhi)
    · exact max_eq_right (ha _ hlo)
    · rw [max_eq_right (ha _ hlo)]; exact min_eq_left (hb _ hhi)
  have hl : Live c st := by
    obtain ⟨ha, hb, hs1, hs2⟩ := h
    constructor <;> simp [ha, hb, hs1, hs2, h1, h2]
  have key : ∀ (n : Nat) (st : St) (t : Nat), Agree s st t →
      (runLoop c p st ((List.range n).map (fun (k : Nat) => some (s.at (t + 1 + k))))).2 =
        (List.range n).map (fun (k : Nat) => (List.range c.nsa).map (fun (i : Nat) => some (s.at (t + 1 + k + 1 + i)))) ∧
      Agree s (runLoop c p st ((List.range n).map (fun (k : Nat) => some (s.at (t + 1 + k))))).1 (t + n) := by
    intro n
    induction n with
    | zero => intro st t h; exact ⟨rfl, h⟩
    | succ n ih =>
      intro st t h
      have h3 := agree_step s p h1 h2 st t (fun u => hc _ (hk1 u)) (fun u => hc _ (hk2 u)) h
      have h4 := agree_forecasts s h1 h2 _ _ h3
      have hm : (List.map Nat.succ (List.range n)).map (fun (k : Nat) => (some (s.at (t + 1 + k)) : V)) =
          (List.range n).map (fun (k : Nat) => some (s.at (t + 1 + 1 + k))) := by
        rw [List.map_map]
        apply List.map_congr_left
        intro k _
        simp only [Function.comp]
        congr 2
        omega
      rw [List.range_succ_eq_map, List.map_cons, hm]
      obtain ⟨i1, i2⟩ := ih _ _ h3
      simp only [runLoop, Nat.add_zero]
      refine ⟨?_, by rw [show t + (n + 1) = t + 1 + n by omega]; exact i2⟩
      rw [List.map_cons, i1, h4, List.map_map]
      simp only [Nat.add_zero]
      congr 1
      apply List.map_congr_left
      intro k _
      simp only [Function.comp]
      apply List.map_congr_left
      intro i _
      congr 2
      omega
  obtain ⟨i1, i2⟩ := key (n + 1) st t h
  refine ⟨_, ?_, by rw [show t + 1 + n = t + (n + 1) by omega]; exact i2⟩
  unfold run
  rw [List.getLast?_eq_some_getLast (by simp)]
  simp only
  rw [hl.start, ← i1]

/-! ### C39 -/

/-- Within the constraints. -/
def Inside (c : Cfg) (v : V) : Prop := ∀ x, v = some x → (∀ l, c.lo = some l → l ≤ x) ∧ (∀ u, c.hi = some u → x ≤ u)

theorem clip_inside (c : Cfg) (hb : ∀ l u, c.lo = some l → c.hi = some u → l ≤ u) (x : ℚ) : Inside c (some (clip c x)) := by
  rintro y ⟨⟩
  unfold clip
  constructor
  · intro l hl
    rw [hl]
    simp only
    cases hh : c.hi with
    | none => exact le_max_left _ _
    | some u => exact le_min (le_max_left _ _) (hb l u hl hh)
  · intro u hu
    rw [hu]
    exact min_le_right _ _

theorem tail_append_drop {c : Cfg} (l : List V) (n : Nat) (x : V) (hl : 1 ≤ l.length) (h : ∀ v ∈ l.drop (l.length - n), Inside c v)
    (hx : Inside c x) : ∀ v ∈ (l.tail ++ [x]).drop ((l.tail ++ [x]).length - (n + 1)), Inside c v := by
  intro v hv
  have hlen : (l.tail ++ [x]).length = l.length := by simp; omega
  rw [hlen] at hv
  rw [List.drop_append] at hv
  rcases List.mem_append.1 hv with hv | hv
  · apply h
    rw [← List.drop_one, List.drop_drop] at hv
    by_cases hn : n < l.length
    · rwa [show 1 + (l.length - (n + 1)) = l.length - n by omega] at hv
    · rw [show l.length - n = 0 by omega]
      exact List.mem_of_mem_drop hv
  · have := List.mem_of_mem_drop hv
    rw [List.mem_singleton] at this
    rw [this]; exact hx

theorem step_lengths (c : Cfg) (p : Pars) (st : St) (y : V) (h1 : 1 ≤ st.s1.length) (h2 : 1 ≤ st.s2.length) :
    (step c p st y).s1.length = st.s1.length ∧ (step c p st y).s2.length = st.s2.length := by
  constructor <;> simp [HW.step] <;> omega

/-- C39: the constraints bind the seasonal entries as they are written: after a call with `n` observations, the `n` newest
entries of each seasonal array are within the constraints (all of them once `n` reaches the period), whatever the starting
states and observations, missing ones included. -/
theorem C39_written_seasonals_inside (c : Cfg) (p : Pars) (hst : c.store = id) (hb : ∀ l u, c.lo = some l → c.hi = some u → l ≤ u)
    (h1 : 1 ≤ c.p1) (h2 : 1 ≤ c.p2) (st : St) (hl1 : st.s1.length = c.p1) (hl2 : st.s2.length = c.p2) (Y : List V) (st' : St)
    (R : List (List V)) (h : predict c p st Y = .ok (st', R)) :
    st'.s1.length = c.p1 ∧ st'.s2.length = c.p2 ∧ (∀ v ∈ st'.s1.drop (c.p1 - Y.length), Inside c v) ∧
      (∀ v ∈ st'.s2.drop (c.p2 - Y.length), Inside c v) := by
  have key : ∀ (p : Pars) (Y : List V) (st : St) (n : Nat), st.s1.length = c.p1 → st.s2.length = c.p2 →
      (∀ v ∈ st.s1.drop (c.p1 - n), Inside c v) → (∀ v ∈ st.s2.drop (c.p2 - n), Inside c v) →
      (runLoop c p st Y).1.s1.length = c.p1 ∧ (runLoop c p st Y).1.s2.length = c.p2 ∧
        (∀ v ∈ (runLoop c p st Y).1.s1.drop (c.p1 - (Y.length + n)), Inside c v) ∧
        (∀ v ∈ (runLoop c p st Y).1.s2.drop (c.p2 - (Y.length + n)), Inside c v) := by
    intro p Y
    induction Y with
    | nil => intro st n a b d e; simpa [runLoop] using ⟨a, b, d, e⟩
    | cons y Y ih =>
      intro st n a b d e
      obtain ⟨s1, s2⟩ := step_lengths c p st y (by omega) (by omega)
      have hin : ∀ v : V, Inside c (v.map (fun x => c.store (clip c x))) := by
        intro v
        rw [hst]
        cases v with
        | none => intro x hx; cases hx
        | some x => exact clip_inside c hb x
      have := ih (step c p st y) (n + 1) (by omega) (by omega)
        (by
          have := tail_append_drop (c := c) st.s1 n _ (by omega) (by rw [a]; exact d) (hin (vadd (cmul p.g1 (vsub (vsub y
            (vadd (cmul p.alpha (vsub (vsub y st.s1.head?.join) st.s2.head?.join)) (cmul (1 - p.alpha) (vadd st.a st.b)))) st.s2.head?.join)) (cmul (1 - p.g1) st.s1.head?.join)))
          simp only [List.length_append, List.length_tail, List.length_singleton, a] at this
          rw [show c.p1 - 1 + 1 = c.p1 by omega] at this
          exact this)
        (by
          have := tail_append_drop (c := c) st.s2 n _ (by omega) (by rw [b]; exact e) (hin (vadd (cmul p.g2 (vsub (vsub y
            (vadd (cmul p.alpha (vsub (vsub y st.s1.head?.join) st.s2.head?.join)) (cmul (1 - p.alpha) (vadd st.a st.b)))) st.s1.head?.join)) (cmul (1 - p.g2) st.s2.head?.join)))
          simp only [List.length_append, List.length_tail, List.length_singleton, b] at this
          rw [show c.p2 - 1 + 1 = c.p2 by omega] at this
          exact this)
      simp only [runLoop, List.length_cons]
      rw [show Y.length + 1 + n = Y.length + (n + 1) by omega]
      exact this
  have hY : Y ≠ [] := by
    rintro rfl
    simp [predict] at h
  rw [predict_eq c p st Y hY] at h
  simp only [Except.ok.injEq, Prod.ext_iff] at h
  have hi : ∀ (q : Nat) (s : List V) (l : V), s.length = q → (seasonInit q s l).length = q := by
    intro q s l hs
    unfold seasonInit
    split
    · simp
    · exact hs
  have := key { p with beta := 0 } Y (HW.start c st (Y.getLast hY)) 0 (hi _ _ _ hl1) (hi _ _ _ hl2)
    (by intro v hv; rw [List.drop_eq_nil_of_le (by simp [HW.start, hi _ _ _ hl1])] at hv; cases hv)
    (by intro v hv; rw [List.drop_eq_nil_of_le (by simp [HW.start, hi _ _ _ hl2])] at hv; cases hv)
  rw [← h.1]
  simpa using this

/-- C39 (limit): the forecasts themselves are not constrained. For any bounds, any smoothing with `alpha > 0` and any
threshold there is an observation after which the first forecast exceeds the threshold, with all seasonal entries within
the bounds. -/
theorem C39_forecasts_not_constrained (c : Cfg) (p : Pars) (l u : ℚ) (_hlo : c.lo = some l) (_hhi : c.hi = some u)
    (h1 : 2 ≤ c.p1) (h2 : 2 ≤ c.p2) (hn : 1 ≤ c.nsa) (hα : 0 < p.alpha) (M : ℚ) :
    ∃ (y f : ℚ) (st' : St) (r : List V), predict c p { a := some 0, b := some 0, s1 := List.replicate c.p1 (some l), s2 := List.replicate c.p2 (some l) }
      [some y] = .ok (st', [r]) ∧ r[0]? = some (some f) ∧ M < f ∧ u < f := by
  have hl : Live c { a := some 0, b := some 0, s1 := List.replicate c.p1 (some l), s2 := List.replicate c.p2 (some l) } := by
    constructor <;> first | rfl | simp | omega
  refine ⟨2 * l + (max M u + 1 - 2 * l) / p.alpha, max M u + 1, ?_⟩
  rw [predict_eq c p _ _ (by simp), hl.start]
  refine ⟨_, _, rfl, ?_, ?_, ?_⟩
  · obtain ⟨q1, hq1⟩ : ∃ q, c.p1 = q + 2 := ⟨c.p1 - 2, by omega⟩
    obtain ⟨q2, hq2⟩ : ∃ q, c.p2 = q + 2 := ⟨c.p2 - 2, by omega⟩
    unfold forecasts
    rw [List.getElem?_map, List.getElem?_range (by omega)]
    simp only [HW.step, hq1, hq2, List.replicate_succ, List.head?_cons, List.tail_cons, Option.join_some, vsub_some, vadd_some,
      cmul_some, Option.map_some, Nat.zero_mod, List.cons_append, List.getElem?_cons_zero, Option.some.injEq]
    push_cast
    field_simp
    ring
  · have := le_max_left M u; linarith
  · have := le_max_right M u; linarith

/-! ### C40 -/

theorem dead_step (c : Cfg) (p : Pars) (st : St) (y : V) (h : st.a = none ∨ y = none ∨ st.s1.head?.join = none ∨ st.s2.head?.join = none) :
    (step c p st y).a = none ∧ (step c p st y).b = none := by
  rcases h with h | h | h | h <;> simp [HW.step, h]

theorem forecasts_dead (c : Cfg) (st : St) (h : st.a = none) : forecasts c st = List.replicate c.nsa none := by
  unfold forecasts
  simp [h, List.map_const']

theorem dead_run (c : Cfg) (p : Pars) (Y : List V) : ∀ (st : St), st.a = none → st.b = none →
    (runLoop c p st Y).1.a = none ∧ (runLoop c p st Y).1.b = none ∧ (runLoop c p st Y).2 = List.replicate Y.length (List.replicate c.nsa none) := by
  induction Y with
  | nil => intro st h hb; exact ⟨h, hb, rfl⟩
  | cons y Y ih =>
    intro st h _
    obtain ⟨h1, h2⟩ := dead_step c p st y (Or.inl h)
    obtain ⟨i1, i2, i3⟩ := ih _ h1 h2
    refine ⟨i1, i2, ?_⟩
    simp only [runLoop, List.length_cons, List.replicate_succ, i3, forecasts_dead c _ h1]

/-- C40: within a call, from the first missing observation on, every forecast of every step is NaN, for every choice of the
smoothing parameters, and the level and trend left behind are NaN. -/
theorem C40_missing_poisons_call (c : Cfg) (p : Pars) (st : St) (Y Z : List V) :
    ∃ st' R, predict c p st (Y ++ none :: Z) = .ok (st', R) ∧ R.length = Y.length + (Z.length + 1) ∧
      R.drop Y.length = List.replicate (Z.length + 1) (List.replicate c.nsa none) ∧ st'.a = none ∧ st'.b = none := by
  rw [predict_eq c p st _ (by simp)]
  refine ⟨_, _, rfl, by rw [runLoop_length]; simp, ?_⟩
  generalize HW.start c st _ = s0
  rw [runLoop_append]
  set s1 := (runLoop c { p with beta := 0 } s0 Y).1 with hs1
  obtain ⟨h1, h2⟩ := dead_step c { p with beta := 0 } s1 none (by simp)
  obtain ⟨i1, i2, i3⟩ := dead_run c { p with beta := 0 } Z _ h1 h2
  refine ⟨?_, i1, i2⟩
  simp only
  rw [List.drop_append_of_le_length (by rw [runLoop_length]), List.drop_eq_nil_of_le (by rw [runLoop_length]), List.nil_append]
  simp only [runLoop, List.replicate_succ, i3, forecasts_dead c _ h1]

/-- Slots of a seasonal array whose next use is at times `u + 1, u + 2, …`: NaN exactly at the times congruent to `t0`. -/
def Slots (q t0 : Nat) (u : Nat) (s : List V) : Prop := ∀ (k : Nat) (v : V), s[k]? = some v → (v = none ↔ (u + 1 + k) % q = t0 % q)

theorem Slots.shift {q t0 u : Nat} {s : List V} {p : Nat} (h : Slots q t0 u s) (hl : s.length = p) (hp : 1 ≤ p) (hd : q ∣ p) (x : V)
    (hx : x = none ↔ (u + 1) % q = t0 % q) : Slots q t0 (u + 1) (s.tail ++ [x]) := by
  intro k v hk
  by_cases h1 : k < s.tail.length
  · rw [List.getElem?_append_left h1, List.getElem?_tail] at hk
    have := h _ _ hk
    rwa [show u + 1 + (k + 1) = u + 1 + 1 + k by omega] at this
  · rw [List.getElem?_append_right (by omega)] at hk
    have h2 : k - s.tail.length < 1 := by
      by_contra hh
      rw [List.getElem?_eq_none (by simp only [List.length_singleton]; omega)] at hk
      cases hk
    have h3 : k = p - 1 := by rw [List.length_tail] at *; omega
    have h4 : k - s.tail.length = 0 := by omega
    rw [h4] at hk
    simp only [List.getElem?_cons_zero, Option.some.injEq] at hk
    rw [← hk, hx, h3, show u + 1 + 1 + (p - 1) = (u + 1) + p by omega]
    obtain ⟨m, rfl⟩ := hd
    rw [Nat.add_mul_mod_self_left]

/-- What a later sequence of one-observation calls relies on: lengths and NaN slots. -/
structure Sick (c : Cfg) (t0 u : Nat) (st : St) : Prop where
  l1 : st.s1.length = c.p1
  l2 : st.s2.length = c.p2
  s1 : Slots c.p1 t0 u st.s1
  s2 : ∀ (k : Nat), st.s2[k]? = some none → (u + 1 + k) % c.p1 = t0 % c.p1

theorem not_all_none {s : List V} {k : Nat} {x : ℚ} (h : s[k]? = some (some x)) : ¬ s.all (fun v => v.isNone) = true := by
  intro ha
  rw [List.all_eq_true] at ha
  have := ha _ (List.mem_of_getElem? h)
  simp at this

theorem some_of_ne {s : List V} {k : Nat} (hk : k < s.length) (h : s[k]? ≠ some none) : ∃ x, s[k]? = some (some x) := by
  rw [List.getElem?_eq_getElem hk] at *
  cases hs : s[k] with
  | none => rw [hs] at h; exact absurd rfl h
  | some x => exact ⟨x, rfl⟩

theorem Sick.start {c : Cfg} {t0 u : Nat} {st : St} (h : Sick c t0 u st) (h1 : 2 ≤ c.p1) (h2 : 2 ≤ c.p2) (l : V) :
    (HW.start c st l).s1 = st.s1 ∧ (HW.start c st l).s2 = st.s2 ∧ (∃ a, (HW.start c st l).a = some a) ∧ ∃ b, (HW.start c st l).b = some b := by
  have hk : ∃ k, k < 2 ∧ ¬ (u + 1 + k) % c.p1 = t0 % c.p1 := by
    by_contra hh
    push Not at hh
    have e0 := hh 0 (by omega)
    have e1 := hh 1 (by omega)
    rw [Nat.add_zero] at e0
    rw [← e0, Nat.add_mod, Nat.mod_eq_of_lt (show 1 < c.p1 by omega)] at e1
    have hlt := Nat.mod_lt (u + 1) (show 0 < c.p1 by omega)
    rcases Nat.lt_or_ge ((u + 1) % c.p1 + 1) c.p1 with h3 | h3
    · rw [Nat.mod_eq_of_lt h3] at e1; omega
    · rw [show (u + 1) % c.p1 + 1 = c.p1 by omega, Nat.mod_self] at e1; omega
  obtain ⟨k, hk2, hk⟩ := hk
  have n1 : st.s1[k]? ≠ some none := fun e => hk ((h.s1 k none e).1 rfl)
  have n2 : st.s2[k]? ≠ some none := fun e => hk (h.s2 k e)
  obtain ⟨x, hx⟩ := some_of_ne (by rw [h.l1]; omega) n1
  obtain ⟨z, hz⟩ := some_of_ne (by rw [h.l2]; omega) n2
  refine ⟨?_, ?_, ⟨_, rfl⟩, ⟨_, rfl⟩⟩
  · simp only [HW.start, seasonInit]
    rw [if_neg (not_all_none hx)]
  · simp only [HW.start, seasonInit]
    rw [if_neg (not_all_none hz)]

theorem head_join (s : List V) : s.head?.join = (s[0]?).join := by cases s <;> rfl

theorem sick_step {c : Cfg} {t0 u : Nat} {st : St} (p : Pars) (h : Sick c t0 u st) (h1 : 2 ≤ c.p1) (h2 : 2 ≤ c.p2) (hd : c.p1 ∣ c.p2)
    (ha : ∃ a, st.a = some a) (hb : ∃ b, st.b = some b) (y : ℚ) :
    Sick c t0 (u + 1) (step c p st (some y)) ∧
      ∀ j, j < c.nsa → ((forecasts c (step c p st (some y)))[j]? = some none ↔ (u + 1) % c.p1 = t0 % c.p1 ∨ (u + 1 + 1 + j) % c.p1 = t0 % c.p1) := by
  obtain ⟨a, ha⟩ := ha
  obtain ⟨b, hb⟩ := hb
  obtain ⟨v1, hv1⟩ : ∃ v, st.s1[0]? = some v := ⟨_, List.getElem?_eq_getElem (by rw [h.l1]; omega)⟩
  obtain ⟨v2, hv2⟩ : ∃ v, st.s2[0]? = some v := ⟨_, List.getElem?_eq_getElem (by rw [h.l2]; omega)⟩
  have i1 := h.s1 0 v1 hv1
  have i2 : v2 = none → (u + 1) % c.p1 = t0 % c.p1 := by rintro rfl; exact h.s2 0 hv2
  rw [Nat.add_zero] at i1
  have q1 : st.s1.head?.join = v1 := by rw [head_join, hv1]; rfl
  have q2 : st.s2.head?.join = v2 := by rw [head_join, hv2]; rfl
  -- the new entries
  have hnew : ((step c p st (some y)).a = none ↔ (u + 1) % c.p1 = t0 % c.p1) ∧ ((u + 1) % c.p1 ≠ t0 % c.p1 → ∃ b', (step c p st (some y)).b = some b') ∧
      ∃ e1 e2 : V, (step c p st (some y)).s1 = st.s1.tail ++ [e1] ∧ (step c p st (some y)).s2 = st.s2.tail ++ [e2] ∧
        (e1 = none ↔ (u + 1) % c.p1 = t0 % c.p1) ∧ (e2 = none → (u + 1) % c.p1 = t0 % c.p1) := by
    cases v1 with
    | none =>
      have ht : (u + 1) % c.p1 = t0 % c.p1 := i1.1 rfl
      refine ⟨?_, fun hh => absurd ht hh, _, _, rfl, rfl, ?_, fun _ => ht⟩
      · simp [HW.step, q1, ht]
      · simp [q1, ht]
    | some x1 =>
      have ht : ¬ (u + 1) % c.p1 = t0 % c.p1 := fun e => by cases i1.2 e
      cases v2 with
      | none => exact absurd (i2 rfl) ht
      | some x2 =>
        refine ⟨?_, ?_, _, _, rfl, rfl, ?_, ?_⟩
        · simp [HW.step, q1, q2, ha, hb, ht]
        · simp [HW.step, q1, q2, ha, hb]
        · simp [q1, q2, ha, hb, ht]
        · simp [q1, q2, ha, hb]
  obtain ⟨na, nb, e1, e2, f1, f2, g1, g2⟩ := hnew
  have hsick : Sick c t0 (u + 1) (step c p st (some y)) := by
    refine ⟨?_, ?_, ?_, ?_⟩
    · rw [f1]; simp [h.l1]; omega
    · rw [f2]; simp [h.l2]; omega
    · rw [f1]; exact h.s1.shift h.l1 (by omega) (dvd_refl _) e1 g1
    · intro k hk
      rw [f2] at hk
      by_cases h3 : k < st.s2.tail.length
      · rw [List.getElem?_append_left h3, List.getElem?_tail] at hk
        have := h.s2 _ hk
        rwa [show u + 1 + (k + 1) = u + 1 + 1 + k by omega] at this
      · rw [List.getElem?_append_right (by omega)] at hk
        have h4 : k - st.s2.tail.length < 1 := by
          by_contra hh
          rw [List.getElem?_eq_none (by simp only [List.length_singleton]; omega)] at hk
          cases hk
        rw [show k - st.s2.tail.length = 0 by omega] at hk
        simp only [List.getElem?_cons_zero, Option.some.injEq] at hk
        have h5 : k = c.p2 - 1 := by rw [List.length_tail, h.l2] at *; omega
        have := g2 hk
        obtain ⟨m, hm⟩ := hd
        rw [h5, show u + 1 + 1 + (c.p2 - 1) = (u + 1) + c.p2 by omega, hm, Nat.add_mul_mod_self_left]
        exact this
  refine ⟨hsick, ?_⟩
  intro j hj
  unfold forecasts
  rw [List.getElem?_map, List.getElem?_range hj]
  obtain ⟨w1, hw1⟩ : ∃ v, (step c p st (some y)).s1[j % c.p1]? = some v := ⟨_, List.getElem?_eq_getElem (by rw [hsick.l1]; exact Nat.mod_lt _ (by omega))⟩
  obtain ⟨w2, hw2⟩ : ∃ v, (step c p st (some y)).s2[j % c.p2]? = some v := ⟨_, List.getElem?_eq_getElem (by rw [hsick.l2]; exact Nat.mod_lt _ (by omega))⟩
  have k1 := hsick.s1 _ _ hw1
  have k2 : w2 = none → (u + 1 + 1 + j) % c.p1 = t0 % c.p1 := by
    rintro rfl
    have := hsick.s2 _ hw2
    rw [← this, Nat.add_mod (u + 1 + 1) (j % c.p2), Nat.mod_mod_of_dvd _ hd, ← Nat.add_mod]
  rw [Nat.add_mod (u + 1 + 1) (j % c.p1), Nat.mod_mod, ← Nat.add_mod] at k1
  simp only [Option.map_some, hw1, hw2, Option.join_some, Option.some.injEq]
  by_cases ht : (u + 1) % c.p1 = t0 % c.p1
  · rw [na.2 ht]; simp [ht]
  · obtain ⟨b', hb'⟩ := nb ht
    obtain ⟨a', ha'⟩ : ∃ a', (step c p st (some y)).a = some a' := by
      cases hx : (step c p st (some y)).a with
      | none => exact absurd (na.1 hx) ht
      | some a' => exact ⟨a', rfl⟩
    rw [ha', hb']
    cases w1 with
    | none => simp [k1.1 rfl]
    | some x1 =>
      have hc : ¬ (u + 1 + 1 + j) % c.p1 = t0 % c.p1 := fun e => by cases k1.2 e
      cases w2 with
      | none => exact absurd (k2 rfl) hc
      | some x2 => simp [ht, hc]

/-- C40 (serving): a forecaster serving one observation per call never heals. If the first period divides the second, then
after one missing observation (at time 0) followed by complete observations at times 1, 2, …, the call at time `t` returns
NaN for the forecast of time `t + 1 + j` exactly if `t` or `t + 1 + j` is a multiple of the first period - however long the
complete data last. -/
theorem C40_never_heals (c : Cfg) (p : Pars) (st : St) (h : Live c st) (h1 : 2 ≤ c.p1) (hd : c.p1 ∣ c.p2) (ys : List ℚ) :
    ∃ st' r0 R, serve c p st ([none] :: ys.map (fun y => [some y])) = .ok (st', r0 :: R) ∧ R.length = ys.length ∧
      r0 = List.replicate c.nsa none ∧
      ∀ (i : Nat) (r : List V) (j : Nat), R[i]? = some r → j < c.nsa →
        (r[j]? = some none ↔ c.p1 ∣ (i + 1) ∨ c.p1 ∣ (i + 1 + 1 + j)) := by
  have h2 : 2 ≤ c.p2 := le_trans h1 (Nat.le_of_dvd (by have := h.pos2; omega) hd)
  have hmod : ∀ n, n % c.p1 = 0 % c.p1 ↔ c.p1 ∣ n := by
    intro n
    rw [Nat.zero_mod]
    exact ⟨Nat.dvd_of_mod_eq_zero, Nat.mod_eq_zero_of_dvd⟩
  -- after the missing observation
  have hs0 : Sick c 0 0 (step c { p with beta := 0 } st none) := by
    refine ⟨?_, ?_, ?_, ?_⟩
    · simp [HW.step, h.l1]; omega
    · simp [HW.step, h.l2]; omega
    · intro k v hk
      simp only [HW.step] at hk
      by_cases h3 : k < st.s1.tail.length
      · rw [List.getElem?_append_left h3, List.getElem?_tail] at hk
        have h4 := h.s1 v (List.mem_of_getElem? hk)
        rw [List.length_tail, h.l1] at h3
        have h5 : ¬ (0 + 1 + k) % c.p1 = 0 % c.p1 := by
          rw [Nat.mod_eq_of_lt (by omega), Nat.zero_mod]; omega
        constructor
        · rintro rfl; simp at h4
        · intro e; exact absurd e h5
      · have h6 : k < (st.s1.tail ++ [(none : V)]).length := by
          by_contra hh
          rw [List.getElem?_eq_none (by simpa using hh)] at hk
          cases hk
        rw [List.getElem?_append_right (by omega)] at hk
        simp only [List.length_append, List.length_tail, List.length_singleton, h.l1] at h6 h3
        have h7 : k - st.s1.tail.length = 0 := by rw [List.length_tail, h.l1]; omega
        rw [h7] at hk
        simp only [vsub_none_left, cmul_none, vadd_none_left, Option.map_none, List.getElem?_cons_zero, Option.some.injEq] at hk
        rw [← hk, show 0 + 1 + k = c.p1 by omega, Nat.mod_self, Nat.zero_mod]
        simp
    · intro k hk
      simp only [HW.step] at hk
      by_cases h3 : k < st.s2.tail.length
      · rw [List.getElem?_append_left h3, List.getElem?_tail] at hk
        have h4 := h.s2 none (List.mem_of_getElem? hk)
        simp at h4
      · have h6 : k < (st.s2.tail ++ [(none : V)]).length := by
          by_contra hh
          rw [List.getElem?_eq_none (by simpa using hh)] at hk
          cases hk
        simp only [List.length_append, List.length_tail, List.length_singleton, h.l2] at h6 h3
        rw [show 0 + 1 + k = c.p2 by omega, Nat.mod_eq_zero_of_dvd hd, Nat.zero_mod]
  have key : ∀ (ys : List ℚ) (u : Nat) (st : St), Sick c 0 u st →
      ∃ st' R, serve c p st (ys.map (fun y => [some y])) = .ok (st', R) ∧ R.length = ys.length ∧
        ∀ (i : Nat) (r : List V) (j : Nat), R[i]? = some r → j < c.nsa →
          (r[j]? = some none ↔ c.p1 ∣ (u + i + 1) ∨ c.p1 ∣ (u + i + 1 + 1 + j)) := by
    intro ys
    induction ys with
    | nil => intro u st _; exact ⟨st, [], rfl, rfl, by simp⟩
    | cons y ys ih =>
      intro u st hs
      obtain ⟨e1, e2, e3, e4⟩ := hs.start h1 h2 (some y)
      have hs' : Sick c 0 u (HW.start c st (some y)) := ⟨by rw [e1]; exact hs.l1, by rw [e2]; exact hs.l2, by rw [e1]; exact hs.s1, by rw [e2]; exact hs.s2⟩
      obtain ⟨g1, g2⟩ := sick_step { p with beta := 0 } hs' h1 h2 hd e3 e4 y
      obtain ⟨st', R, r1, r2, r3⟩ := ih _ _ g1
      refine ⟨st', forecasts c (step c { p with beta := 0 } (HW.start c st (some y)) (some y)) :: R, ?_, by rw [List.length_cons, r2, List.length_cons], ?_⟩
      · rw [List.map_cons]
        unfold serve
        rw [predict_eq c p st _ (by simp)]
        simp only [runLoop, List.getLast_singleton]
        rw [r1]
        rfl
      · intro i r j hi hj
        cases i with
        | zero =>
          simp only [List.getElem?_cons_zero, Option.some.injEq] at hi
          rw [← hi, g2 j hj, hmod, hmod]
        | succ i =>
          rw [List.getElem?_cons_succ] at hi
          rw [r3 i r j hi hj, show u + 1 + i + 1 = u + (i + 1) + 1 by omega]
  obtain ⟨st', R, r1, r2, r3⟩ := key ys 0 _ hs0
  refine ⟨st', forecasts c (step c { p with beta := 0 } st none), R, ?_, r2, ?_, ?_⟩
  · unfold serve
    rw [predict_eq c p st _ (by simp), h.start]
    simp only [runLoop]
    rw [r1]
    rfl
  · exact forecasts_dead c _ (dead_step c _ st none (by simp)).1
  · intro i r j hi hj
    rw [r3 i r j hi hj, Nat.zero_add]

end PyF.HW
