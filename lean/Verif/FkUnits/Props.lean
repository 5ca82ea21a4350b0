import Verif.FkUnits.Model
import Verif.Fast.Props

/-!
C260: forecasts of `FK` in other units of measure. C261: the filter after a coefficient that does not vary.
-/

namespace PyF.FkUnits

open PyF.Fast

/-! ### Spec -/

/-- A call on an object: fitting or predicting with a series. -/
inductive Call where
  | fit (y : List ℝ)
  | predict (y : List ℝ)

/-- The call with the series measured in other units. -/
def Call.inUnits (k : ℝ) : Call → Call
  | .fit y => .fit (y.map (k * ·))
  | .predict y => .predict (y.map (k * ·))

/-- The rows of forecasts measured in other units. -/
def rowsInUnits (k : ℝ) (rs : List (Option (List ℝ))) : List (Option (List ℝ)) := rs.map (Option.map (List.map (k * ·)))

/-- What an object returns over a sequence of calls; an exception ends it. -/
noncomputable def session (c : Fcfg ℝ) (pinv : Mat c.d → Mat c.d) : St c.d → List Call → List (Except PyErr (List (Option (List ℝ))))
  | _, [] => []
  | s, .fit y :: cs =>
    match PyF.FkUnits.fit c pinv s y with
    | .error e => [.error e]
    | .ok (s', rs) => .ok rs :: session c pinv s' cs
  | s, .predict y :: cs =>
    match PyF.FkUnits.predict c pinv s y with
    | .error e => [.error e]
    | .ok (s', rs) => .ok rs :: session c pinv s' cs

/-! ### Units -/

/-- The state measured in other units. -/
def scale (k : ℝ) {d : Nat} (s : St d) : St d :=
  { filter := s.filter.map (fun (F : Filter d) => { F with x := k • F.x }), w := s.w.map (k * ·), eps := k * s.eps, hist := s.hist.map (k • ·) }

theorem recentHistory_map {α β : Type} (f : α → β) (y w : List α) (st i : Nat) :
    recentHistory (y.map f) (w.map f) st i = (recentHistory y w st i).map (List.map f) := by
  unfold recentHistory slice rollLeft
  simp only [List.length_map, ← List.map_take, ← List.map_drop]
  split
  · rfl
  · split
    · rfl
    · simp [Except.map]

theorem getD_scale (k : ℝ) (w : List ℝ) (r : Nat) : (w.map (k * ·)).getD r 0 = k * w.getD r 0 := by
  simp only [List.getD_eq_getElem?_getD, List.getElem?_map]
  cases w[r]? <;> simp

theorem getLastD_scale (k : ℝ) (w : List ℝ) : (w.map (k * ·)).getLastD 0 = k * w.getLastD 0 := by
  rw [List.getLastD_eq_getLast?, List.getLastD_eq_getLast?, List.getLast?_map]
  cases w.getLast? <;> simp

theorem project_scale (c : Fcfg ℝ) (i : Nat) (k : ℝ) (w : List ℝ) : project c i (w.map (k * ·)) = k • project c i w := by
  funext a
  simp only [project, Pi.smul_apply, smul_eq_mul, ← List.sum_map_mul_left, getD_scale]
  congr 1
  apply List.map_congr_left
  intro r _
  ring

theorem project'_scale (c : Fcfg ℝ) (i : Nat) (k : ℝ) (x : Vec c.d) : project' c i (k • x) = (project' c i x).map (k * ·) := by
  simp only [project', List.map_map]
  apply List.map_congr_left
  intro r _
  simp only [dot, Function.comp, Pi.smul_apply, smul_eq_mul, Finset.mul_sum]
  apply Finset.sum_congr rfl
  intro a _
  ring

theorem addEps_scale (c : Fcfg ℝ) (k e : ℝ) (p : List ℝ) : addEps c (k * e) (p.map (k * ·)) = (addEps c e p).map (k * ·) := by
  simp only [addEps, List.map_map]
  apply List.map_congr_left
  intro h _
  simp only [Function.comp, getD_scale]
  ring

theorem kalman_scale {d : Nat} (pinv : Mat d → Mat d) (k : ℝ) (x y : Vec d) (P Q R : Mat d) :
    kalman pinv (k • x) P Q (k • y) R = (k • (kalman pinv x P Q y R).1, (kalman pinv x P Q y R).2) := by
  simp only [kalman, ← smul_sub, Matrix.mulVec_smul, ← smul_add]

theorem mean_scale {d : Nat} (k : ℝ) (l : List (Vec d)) (a : Fin (d + 1)) : mean (l.map (k • ·)) a = k * mean l a := by
  simp only [mean, List.map_map, List.length_map]
  rw [← mul_div_assoc, ← List.sum_map_mul_left]
  rfl

theorem cov_scale {d : Nat} (k : ℝ) (l : List (Vec d)) (a b : Fin (d + 1)) : cov (l.map (k • ·)) a b = k ^ 2 * cov l a b := by
  simp only [cov, List.map_map, List.length_map, mean_scale]
  rw [← mul_div_assoc, ← List.sum_map_mul_left]
  congr 2
  apply List.map_congr_left
  intro h _
  simp only [Function.comp, Pi.smul_apply, smul_eq_mul]
  ring

/-- Correlations do not depend on the units. -/
theorem corrcoef_scale {d : Nat} (k : ℝ) (hk : k ≠ 0) (l : List (Vec d)) : corrcoef (l.map (k • ·)) = corrcoef l := by
  have hk2 : k ^ 2 ≠ 0 := pow_ne_zero 2 hk
  unfold corrcoef
  simp only [List.length_map, cov_scale, mul_eq_zero, hk2, false_or]
  split
  · rfl
  · congr 1
    funext a b
    congr 2
    rw [Real.sqrt_mul (sq_nonneg k), Real.sqrt_mul (sq_nonneg k), Real.sqrt_sq_eq_abs, div_div, div_div]
    have : |k| * Real.sqrt (cov l a a) * (|k| * Real.sqrt (cov l b b)) = k ^ 2 * (Real.sqrt (cov l a a) * Real.sqrt (cov l b b)) := by
      rw [← sq_abs k]; ring
    rw [this, mul_div_mul_left _ _ hk2]

theorem refresh_scale {d : Nat} (k : ℝ) (hk : k ≠ 0) (m i : Nat) (hist : List (Vec d)) (F : Filter d) :
    refresh m i (hist.map (k • ·)) { F with x := k • F.x } = (refresh m i hist F).map (fun (F : Filter d) => { F with x := k • F.x }) := by
  unfold refresh
  rw [← List.map_take, corrcoef_scale k hk]
  split
  · cases corrcoef (hist.take i) <;> rfl
  · rfl

theorem step_scale (c : Fcfg ℝ) (pinv : Mat c.d → Mat c.d) (k : ℝ) (hk : k ≠ 0) (wInit y : List ℝ) (s : St c.d) (i : Nat) :
    step c pinv (wInit.map (k * ·)) (y.map (k * ·)) (scale k s) i =
      (step c pinv wInit y s i).map (fun p => (scale k p.1, p.2.map (List.map (k * ·)))) := by
  unfold step
  rw [recentHistory_map]
  cases recentHistory y wInit (i + 1 - c.m) i with
  | error e => rfl
  | ok w =>
    obtain ⟨f, w0, eps, hist⟩ := s
    cases f with
    | none => rfl
    | some F =>
      simp only [Except.map, scale, Option.map_some, project_scale, kalman_scale, project'_scale, getLastD_scale]
      cases hp : project' c i (kalman pinv F.x F.P F.Q (project c i w) F.R).1 with
      | nil => rfl
      | cons p ps =>
        have he : c.omega * (k * w.getLastD 0 - k * p) + (1 - c.omega) * (k * eps) = k * (c.omega * (w.getLastD 0 - p) + (1 - c.omega) * eps) := by ring
        have h1 := addEps_scale c k (c.omega * (w.getLastD 0 - p) + (1 - c.omega) * eps) (p :: ps)
        rw [List.map_cons] at h1
        have h2 := refresh_scale k hk c.m i (hist.set i (kalman pinv F.x F.P F.Q (project c i w) F.R).1)
          { F with x := (kalman pinv F.x F.P F.Q (project c i w) F.R).1, P := (kalman pinv F.x F.P F.Q (project c i w) F.R).2 }
        simp only [List.map_cons, he, h1, Option.map_some, ← List.map_set]
        rw [h2]

theorem loop_scale (c : Fcfg ℝ) (pinv : Mat c.d → Mat c.d) (k : ℝ) (hk : k ≠ 0) (wInit y : List ℝ) (is : List Nat) : ∀ (s : St c.d),
    loop c pinv (wInit.map (k * ·)) (y.map (k * ·)) (scale k s) is =
      (loop c pinv wInit y s is).map (fun p => (scale k p.1, rowsInUnits k p.2)) := by
  induction is with
  | nil => intro s; rfl
  | cons i is ih =>
    intro s
    unfold loop
    rw [step_scale c pinv k hk]
    cases step c pinv wInit y s i with
    | error e => rfl
    | ok p =>
      simp only [Except.map]
      rw [ih]
      cases loop c pinv wInit y p.1 is <;> rfl

theorem fit_scale (c : Fcfg ℝ) (pinv : Mat c.d → Mat c.d) (k : ℝ) (hk : k ≠ 0) (s : St c.d) (y : List ℝ) :
    fit c pinv (scale k s) (y.map (k * ·)) = (fit c pinv s y).map (fun p => (scale k p.1, rowsInUnits k p.2)) := by
  unfold fit
  by_cases h : y = []
  · simp [h, Except.map]
  · rw [if_neg (by simpa using h), if_neg h, List.length_map, ← loop_scale c pinv k hk]
    congr 1
    simp [scale]

theorem predict_scale (c : Fcfg ℝ) (pinv : Mat c.d → Mat c.d) (k : ℝ) (hk : k ≠ 0) (s : St c.d) (y : List ℝ) :
    predict c pinv (scale k s) (y.map (k * ·)) = (predict c pinv s y).map (fun p => (scale k p.1, rowsInUnits k p.2)) := by
  unfold predict
  rw [fit_scale c pinv k hk]
  cases fit c pinv s y <;> rfl

theorem session_scale (c : Fcfg ℝ) (pinv : Mat c.d → Mat c.d) (k : ℝ) (hk : k ≠ 0) (cs : List Call) : ∀ (s : St c.d),
    session c pinv (scale k s) (cs.map (Call.inUnits k)) = (session c pinv s cs).map (Except.map (rowsInUnits k)) := by
  induction cs with
  | nil => intro s; rfl
  | cons a cs ih =>
    intro s
    cases a with
    | fit y =>
      simp only [List.map_cons, Call.inUnits, session]
      rw [fit_scale c pinv k hk]
      cases fit c pinv s y with
      | error e => rfl
      | ok p => simp only [Except.map, List.map_cons]; rw [ih]
    | predict y =>
      simp only [List.map_cons, Call.inUnits, session]
      rw [predict_scale c pinv k hk]
      cases predict c pinv s y with
      | error e => rfl
      | ok p => simp only [Except.map, List.map_cons]; rw [ih]

/-- C260: a new `FK` fed with a series in other units of measure returns its forecasts in those units, over any sequence of
fits and predictions, refreshes of `Q` and `R` included. -/
theorem C260_units (c : Fcfg ℝ) (pinv : Mat c.d → Mat c.d) (q r k : ℝ) (hk : k ≠ 0) (cs : List Call) :
    session c pinv (fresh c q r) (cs.map (Call.inUnits k)) = (session c pinv (fresh c q r) cs).map (Except.map (rowsInUnits k)) := by
  rw [← session_scale c pinv k hk]
  congr 1
  simp [fresh, scale]

/-! ### Dead filters -/

theorem sum_sq_zero (l : List ℝ) (h : (l.map (fun (x : ℝ) => x * x)).sum = 0) : ∀ x ∈ l, x = 0 := by
  induction l with
  | nil => simp
  | cons a l ih =>
    have h1 : 0 ≤ (l.map (fun (x : ℝ) => x * x)).sum := List.sum_nonneg (by simp only [List.mem_map]; rintro _ ⟨x, _, rfl⟩; exact mul_self_nonneg x)
    have h2 := mul_self_nonneg a
    rw [List.map_cons, List.sum_cons] at h
    have h3 : a * a = 0 := by linarith
    have h4 := ih (by linarith)
    intro x hx
    rcases List.mem_cons.1 hx with rfl | hx
    · exact mul_self_eq_zero.1 h3
    · exact h4 x hx

/-- A coefficient has no variance iff it is the same in all stored columns. -/
theorem cov_zero_iff {d : Nat} (l : List (Vec d)) (hl : 2 ≤ l.length) (a : Fin (d + 1)) :
    cov l a a = 0 ↔ ∀ h ∈ l, ∀ h' ∈ l, h a = h' a := by
  have hn : ((l.length : ℝ) - 1) ≠ 0 := by
    have : (2 : ℝ) ≤ (l.length : ℝ) := by exact_mod_cast hl
    linarith
  constructor
  · intro h0
    have h1 : (l.map (fun (h : Vec d) => (h a - mean l a) * (h a - mean l a))).sum = 0 := by
      unfold cov at h0
      rcases div_eq_zero_iff.1 h0 with h | h
      · exact h
      · exact absurd h hn
    have h2 := sum_sq_zero (l.map (fun (h : Vec d) => h a - mean l a)) (by rw [List.map_map]; exact h1)
    intro h hh h' hh'
    have e1 := h2 _ (List.mem_map.2 ⟨h, hh, rfl⟩)
    have e2 := h2 _ (List.mem_map.2 ⟨h', hh', rfl⟩)
    linarith
  · intro hall
    have hne : l ≠ [] := by rintro rfl; simp at hl
    obtain ⟨g, hg⟩ := List.exists_mem_of_ne_nil l hne
    have hm : mean l a = g a := by
      have : l.map (fun (h : Vec d) => h a) = List.replicate l.length (g a) := by
        rw [List.eq_replicate_iff]
        refine ⟨by simp, ?_⟩
        intro x hx
        obtain ⟨h, hh, rfl⟩ := List.mem_map.1 hx
        exact hall h hh g hg
      unfold mean
      rw [this, List.sum_replicate, nsmul_eq_mul]
      have : (l.length : ℝ) ≠ 0 := by
        have : 0 < l.length := by omega
        exact_mod_cast this.ne'
      field_simp
    unfold cov
    have : (l.map (fun (h : Vec d) => (h a - mean l a) * (h a - mean l a))) = List.replicate l.length 0 := by
      rw [List.eq_replicate_iff]
      refine ⟨by simp, ?_⟩
      intro x hx
      obtain ⟨h, hh, rfl⟩ := List.mem_map.1 hx
      rw [hm, hall h hh g hg]
      simp
    rw [this]
    simp

/-- C261 (refresh): after sample `i` the filter is lost iff `i` is a positive multiple of `m` and there are fewer than two
stored columns before it or some coefficient is the same in all of them. -/
theorem C261_refresh {d : Nat} (m i : Nat) (hist : List (Vec d)) (F : Filter d) :
    refresh m i hist F = none ↔
      m ∣ i ∧ m ≤ i ∧ (min i hist.length < 2 ∨ ∃ a, ∀ j j' : Nat, ∀ h h' : Vec d, j < i → j' < i → hist[j]? = some h → hist[j']? = some h' → h a = h' a) := by
  have key : ∀ a, (∀ h ∈ hist.take i, ∀ h' ∈ hist.take i, h a = h' a) ↔
      ∀ j j' : Nat, ∀ h h' : Vec d, j < i → j' < i → hist[j]? = some h → hist[j']? = some h' → h a = h' a := by
    intro a
    constructor
    · intro H j j' h h' hj hj' e e'
      refine H h ?_ h' ?_
      · exact List.mem_of_getElem? (i := j) (by rw [List.getElem?_take, if_pos hj]; exact e)
      · exact List.mem_of_getElem? (i := j') (by rw [List.getElem?_take, if_pos hj']; exact e')
    · intro H h hh h' hh'
      obtain ⟨j, e⟩ := List.mem_iff_getElem?.1 hh
      obtain ⟨j', e'⟩ := List.mem_iff_getElem?.1 hh'
      rw [List.getElem?_take] at e e'
      by_cases hj : j < i
      · by_cases hj' : j' < i
        · rw [if_pos hj] at e
          rw [if_pos hj'] at e'
          exact H j j' h h' hj hj' e e'
        · rw [if_neg hj'] at e'; cases e'
      · rw [if_neg hj] at e; cases e
  have hlen : (hist.take i).length = min i hist.length := List.length_take
  unfold refresh corrcoef
  by_cases hc : i % m = 0 ∧ m ≤ i
  · rw [if_pos hc]
    have hd : m ∣ i := Nat.dvd_of_mod_eq_zero hc.1
    by_cases h2 : (hist.take i).length < 2
    · rw [if_pos (Or.inl h2)]
      rw [hlen] at h2
      simp [hd, hc.2, h2]
    · by_cases he : ∃ a, cov (hist.take i) a a = 0
      · rw [if_pos (Or.inr he)]
        obtain ⟨a, ha⟩ := he
        refine ⟨fun _ => ⟨hd, hc.2, Or.inr ⟨a, (key a).1 ((cov_zero_iff _ (by omega) a).1 ha)⟩⟩, fun _ => rfl⟩
      · rw [if_neg (by rintro (h | h); exact h2 h; exact he h)]
        refine ⟨fun h => (by cases h), ?_⟩
        rintro ⟨_, _, h | ⟨a, ha⟩⟩
        · rw [hlen] at h2; exact absurd h h2
        · exact absurd ⟨a, (cov_zero_iff _ (by omega) a).2 ((key a).2 ha)⟩ he
  · rw [if_neg hc]
    refine ⟨fun h => (by cases h), ?_⟩
    rintro ⟨h1, h2, _⟩
    exact absurd ⟨Nat.mod_eq_zero_of_dvd h1, h2⟩ hc

theorem step_dead (c : Fcfg ℝ) (pinv : Mat c.d → Mat c.d) (wInit y : List ℝ) (s s' : St c.d) (i : Nat) (r : Option (List ℝ))
    (hs : s.filter = none) (h : step c pinv wInit y s i = .ok (s', r)) : s'.filter = none ∧ r = none := by
  unfold step at h
  cases e : recentHistory y wInit (i + 1 - c.m) i with
  | error e' => rw [e] at h; cases h
  | ok w =>
    rw [e, hs] at h
    have := Prod.mk.inj (Except.ok.inj h)
    rw [← this.1, ← this.2]
    exact ⟨rfl, rfl⟩

theorem loop_dead (c : Fcfg ℝ) (pinv : Mat c.d → Mat c.d) (wInit y : List ℝ) (is : List Nat) : ∀ (s s' : St c.d) (rs : List (Option (List ℝ))),
    s.filter = none → loop c pinv wInit y s is = .ok (s', rs) → s'.filter = none ∧ rs = List.replicate is.length none := by
  induction is with
  | nil =>
    intro s s' rs hs h
    have := Prod.mk.inj (Except.ok.inj h)
    rw [← this.1, ← this.2]
    exact ⟨hs, rfl⟩
  | cons i is ih =>
    intro s s' rs hs h
    unfold loop at h
    cases e : step c pinv wInit y s i with
    | error e' => rw [e] at h; cases h
    | ok p =>
      obtain ⟨s1, r⟩ := p
      rw [e] at h
      simp only at h
      obtain ⟨h1, h2⟩ := step_dead c pinv wInit y s s1 i r hs e
      cases e2 : loop c pinv wInit y s1 is with
      | error e' => rw [e2] at h; cases h
      | ok p =>
        obtain ⟨s2, rs2⟩ := p
        rw [e2] at h
        have := Prod.mk.inj (Except.ok.inj h)
        obtain ⟨h3, h4⟩ := ih s1 s2 rs2 h1 e2
        rw [← this.1, ← this.2, h2, h4]
        exact ⟨h3, rfl⟩

theorem fit_dead (c : Fcfg ℝ) (pinv : Mat c.d → Mat c.d) (s s' : St c.d) (y : List ℝ) (rs : List (Option (List ℝ)))
    (hs : s.filter = none) (h : fit c pinv s y = .ok (s', rs)) : s'.filter = none ∧ rs = List.replicate y.length none := by
  unfold fit at h
  by_cases hy : y = []
  · rw [if_pos hy] at h; cases h
  · rw [if_neg hy] at h
    have := loop_dead c pinv s.w y _ _ s' rs (by exact hs) h
    rwa [List.length_range] at this

/-- C261 (for good): a filter once lost gives no forecast in any later call. -/
theorem C261_for_good (c : Fcfg ℝ) (pinv : Mat c.d → Mat c.d) (cs : List Call) : ∀ (s : St c.d), s.filter = none →
    ∀ rs, Except.ok rs ∈ session c pinv s cs → ∀ r ∈ rs, r = none := by
  induction cs with
  | nil => intro s _ rs h; simp [session] at h
  | cons a cs ih =>
    intro s hs rs h
    cases a with
    | fit y =>
      unfold session at h
      cases e : fit c pinv s y with
      | error e' => rw [e] at h; simp at h
      | ok p =>
        obtain ⟨s', q⟩ := p
        rw [e] at h
        obtain ⟨h1, h2⟩ := fit_dead c pinv s s' y q hs e
        rcases List.mem_cons.1 h with h | h
        · rw [Except.ok.inj h, h2]
          intro r hr
          exact (List.mem_replicate.1 hr).2
        · exact ih s' h1 rs h
    | predict y =>
      unfold session predict at h
      cases e : fit c pinv s y with
      | error e' => rw [e] at h; simp at h
      | ok p =>
        obtain ⟨s', q⟩ := p
        rw [e] at h
        obtain ⟨h1, h2⟩ := fit_dead c pinv s s' y q hs e
        rcases List.mem_cons.1 h with h | h
        · rw [Except.ok.inj h, h2]
          intro r hr
          exact (List.mem_replicate.1 hr).2
        · exact ih { s with hist := s'.hist } hs rs h

theorem loop_append (c : Fcfg ℝ) (pinv : Mat c.d → Mat c.d) (wInit y : List ℝ) (is js : List Nat) : ∀ (s : St c.d),
    loop c pinv wInit y s (is ++ js) =
      match loop c pinv wInit y s is with
      | .error e => .error e
      | .ok (s', rs) =>
        match loop c pinv wInit y s' js with
        | .error e => .error e
        | .ok (s'', rs') => .ok (s'', rs ++ rs') := by
  induction is with
  | nil =>
    intro s
    simp only [List.nil_append, loop]
    cases loop c pinv wInit y s js <;> rfl
  | cons i is ih =>
    intro s
    simp only [List.cons_append, loop]
    cases step c pinv wInit y s i with
    | error e => rfl
    | ok p =>
      simp only
      rw [ih]
      cases loop c pinv wInit y p.1 is with
      | error e => rfl
      | ok p' =>
        simp only
        cases loop c pinv wInit y p'.1 js <;> rfl

/-- The basis rows used for forecasts are there. -/
def Covered (c : Fcfg ℝ) : Prop := 1 ≤ c.m ∧ 1 ≤ c.nsa ∧ c.period ≤ c.m

theorem project'_ne_nil (c : Fcfg ℝ) (hc : Covered c) (i : Nat) (x : Vec c.d) : project' c i x ≠ [] := by
  obtain ⟨h1, h2, h3⟩ := hc
  have hi : i % c.m < c.m := Nat.mod_lt _ (by omega)
  intro h
  have : (project' c i x).length = 0 := by rw [h]; rfl
  simp only [project', List.length_map, pySlice, List.length_drop, List.length_range, Fcfg.rows] at this
  rw [if_neg (by omega), if_neg (by omega)] at this
  omega

theorem step_ok (c : Fcfg ℝ) (hc : Covered c) (pinv : Mat c.d → Mat c.d) (wInit y : List ℝ) (hw : wInit.length = c.m) (s : St c.d) (i : Nat)
    (hi : i < y.length) : ∃ s' r, step c pinv wInit y s i = .ok (s', r) := by
  have e := C42_window y wInit i (by have := hc.1; omega) hi
  rw [hw] at e
  unfold step
  rw [e]
  simp only
  cases s.filter with
  | none => exact ⟨_, _, rfl⟩
  | some F =>
    simp only
    cases hp : project' c i (kalman pinv F.x F.P F.Q (project c i (lastM c.m (wInit ++ y.take (i + 1)))) F.R).1 with
    | nil => exact absurd hp (project'_ne_nil c hc i _)
    | cons p ps => exact ⟨_, _, rfl⟩

theorem loop_ok (c : Fcfg ℝ) (hc : Covered c) (pinv : Mat c.d → Mat c.d) (wInit y : List ℝ) (hw : wInit.length = c.m) (is : List Nat)
    (hi : ∀ i ∈ is, i < y.length) : ∀ (s : St c.d), ∃ s' rs, loop c pinv wInit y s is = .ok (s', rs) := by
  induction is with
  | nil => intro s; exact ⟨s, [], rfl⟩
  | cons i is ih =>
    intro s
    obtain ⟨s1, r, e⟩ := step_ok c hc pinv wInit y hw s i (hi i (by simp))
    obtain ⟨s2, rs, e2⟩ := ih (fun j hj => hi j (by simp [hj])) s1
    refine ⟨s2, r :: rs, ?_⟩
    unfold loop
    rw [e]
    simp only
    rw [e2]

/-- A filter that has seen zeros only. -/
structure Idle (c : Fcfg ℝ) (n : Nat) (s : St c.d) : Prop where
  filter : ∃ F, s.filter = some F ∧ F.x = 0
  hist : s.hist = List.replicate n 0

theorem project_zero (c : Fcfg ℝ) (i : Nat) (w : List ℝ) (h : ∀ x ∈ w, x = 0) : project c i w = 0 := by
  have : w = w.map ((0 : ℝ) * ·) := by
    conv_lhs => rw [← List.map_id w]
    apply List.map_congr_left
    intro x hx
    simp [h x hx]
  rw [this, project_scale, zero_smul]

theorem step_zero (c : Fcfg ℝ) (hc : Covered c) (pinv : Mat c.d → Mat c.d) (wInit y : List ℝ) (hw : wInit.length = c.m) (s s' : St c.d) (i n : Nat)
    (r : Option (List ℝ)) (hi : i < y.length) (hz : ∀ x ∈ wInit ++ y.take (i + 1), x = 0) (hs : Idle c n s)
    (h : step c pinv wInit y s i = .ok (s', r)) : (i < c.m → Idle c n s') ∧ ∃ v, r = some v := by
  have e := C42_window y wInit i (by have := hc.1; omega) hi
  rw [hw] at e
  obtain ⟨⟨F, hF, hx⟩, hh⟩ := hs
  unfold step at h
  rw [e, hF] at h
  have hp0 : project c i (lastM c.m (wInit ++ y.take (i + 1))) = 0 := project_zero c i _ (fun x hx => hz x (List.mem_of_mem_drop hx))
  simp only [hp0, hx] at h
  have hk : (kalman pinv (0 : Vec c.d) F.P F.Q 0 F.R).1 = 0 := by simp [kalman]
  rw [hk] at h
  cases hp : project' c i (0 : Vec c.d) with
  | nil => exact absurd hp (project'_ne_nil c hc i _)
  | cons p ps =>
    rw [hp] at h
    have g := Prod.mk.inj (Except.ok.inj h)
    refine ⟨fun him => ?_, ⟨_, g.2.symm⟩⟩
    rw [← g.1]
    refine ⟨⟨{ F with x := 0, P := (kalman pinv (0 : Vec c.d) F.P F.Q 0 F.R).2 }, if_neg (by omega), rfl⟩, ?_⟩
    simp only [hh]
    apply List.ext_getElem (by simp)
    intro j hj hj'
    rw [List.getElem_set]
    simp

theorem loop_zero (c : Fcfg ℝ) (hc : Covered c) (pinv : Mat c.d → Mat c.d) (wInit y : List ℝ) (hw : wInit.length = c.m) (n : Nat)
    (hz : ∀ x ∈ wInit ++ y.take c.m, x = 0) (hy : c.m ≤ y.length) (is : List Nat) (hi : ∀ i ∈ is, i < c.m) :
    ∀ (s s' : St c.d) (rs : List (Option (List ℝ))), Idle c n s → loop c pinv wInit y s is = .ok (s', rs) →
      Idle c n s' ∧ rs.length = is.length ∧ ∀ r ∈ rs, ∃ v, r = some v := by
  induction is with
  | nil =>
    intro s s' rs hs h
    have := Prod.mk.inj (Except.ok.inj h)
    rw [← this.1, ← this.2]
    exact ⟨hs, rfl, by simp⟩
  | cons i is ih =>
    intro s s' rs hs h
    have him := hi i (by simp)
    unfold loop at h
    cases e : step c pinv wInit y s i with
    | error e' => rw [e] at h; cases h
    | ok p =>
      obtain ⟨s1, r⟩ := p
      rw [e] at h
      simp only at h
      obtain ⟨h1, h2⟩ := step_zero c hc pinv wInit y hw s s1 i n r (by omega) (by
        intro x hx
        apply hz
        rcases List.mem_append.1 hx with hx | hx
        · exact List.mem_append_left _ hx
        · exact List.mem_append_right _ (List.mem_of_mem_take (i := i + 1) (by rwa [List.take_take, min_eq_left (by omega)]))) hs e
      cases e2 : loop c pinv wInit y s1 is with
      | error e' => rw [e2] at h; cases h
      | ok p =>
        obtain ⟨s2, rs2⟩ := p
        rw [e2] at h
        have g := Prod.mk.inj (Except.ok.inj h)
        obtain ⟨h3, h4, h5⟩ := ih (fun j hj => hi j (by simp [hj])) s1 s2 rs2 (h1 him) e2
        rw [← g.1, ← g.2]
        refine ⟨h3, by simp [h4], ?_⟩
        intro q hq
        rcases List.mem_cons.1 hq with rfl | hq
        · exact h2
        · exact h5 q hq

theorem step_m (c : Fcfg ℝ) (hc : Covered c) (pinv : Mat c.d → Mat c.d) (wInit y : List ℝ) (hw : wInit.length = c.m) (s s' : St c.d) (n : Nat)
    (r : Option (List ℝ)) (hi : c.m < y.length) (hs : Idle c n s) (h : step c pinv wInit y s c.m = .ok (s', r)) :
    s'.filter = none ∧ ∃ v, r = some v := by
  have e := C42_window y wInit c.m (by have := hc.1; omega) hi
  rw [hw] at e
  obtain ⟨⟨F, hF, hx⟩, hh⟩ := hs
  unfold step at h
  rw [e, hF] at h
  simp only at h
  generalize kalman pinv F.x F.P F.Q (project c c.m (lastM c.m (wInit ++ y.take (c.m + 1)))) F.R = kk at h
  cases hp : project' c c.m kk.1 with
  | nil => exact absurd hp (project'_ne_nil c hc c.m _)
  | cons p ps =>
    rw [hp] at h
    have g := Prod.mk.inj (Except.ok.inj h)
    refine ⟨?_, ⟨_, g.2.symm⟩⟩
    rw [← g.1]
    refine (C261_refresh c.m c.m _ _).2 ⟨dvd_refl _, le_refl _, Or.inr ⟨0, ?_⟩⟩
    have key : ∀ (j : Nat) (v : Vec c.d), j < c.m → (s.hist.set c.m kk.1)[j]? = some v → v = 0 := by
      intro j v hj hv
      rw [List.getElem?_set_ne (by omega), hh, List.getElem?_replicate] at hv
      split at hv
      · exact (Option.some.inj hv).symm
      · cases hv
    intro j j' v v' hj hj' hv hv'
    rw [key j v hj hv, key j' v' hj' hv']

/-- C261 (zeros): fitting a new `FK` on a series whose first `m` samples are zero, with at least one more, gives forecasts
for the first `m + 1` samples and none for those after, and leaves no filter. -/
theorem C261_zeros (c : Fcfg ℝ) (hc : Covered c) (pinv : Mat c.d → Mat c.d) (q r : ℝ) (y : List ℝ) (hz : ∀ j < c.m, y[j]? = some 0)
    (hlen : c.m < y.length) :
    ∃ s rs, fit c pinv (fresh c q r) y = .ok (s, rs) ∧ s.filter = none ∧ rs.length = y.length ∧
      ∀ j < y.length, rs[j]? = some none ↔ c.m < j := by
  have hne : y ≠ [] := by rintro rfl; simp at hlen
  obtain ⟨k, hk⟩ : ∃ k, y.length = c.m + (1 + k) := ⟨y.length - c.m - 1, by omega⟩
  set s0 : St c.d := { fresh c q r with hist := (fresh c q r).hist ++ List.replicate y.length 0 } with hs0
  have hfit : fit c pinv (fresh c q r) y = loop c pinv (fresh c q r).w y s0 (List.range c.m ++ ([c.m] ++ (List.range k).map (fun (j : Nat) => c.m + (1 + j)))) := by
    unfold fit
    rw [if_neg hne]
    congr 1
    rw [hk, List.range_add, List.range_add]
    simp [Function.comp_def]
  have hw : (fresh c q r).w.length = c.m := by simp [fresh]
  have hidle : Idle c y.length s0 := ⟨⟨_, rfl, rfl⟩, by simp [hs0, fresh]⟩
  have hzz : ∀ x ∈ (fresh c q r).w ++ y.take c.m, x = 0 := by
    intro x hx
    rcases List.mem_append.1 hx with hx | hx
    · exact (List.mem_replicate.1 hx).2
    · obtain ⟨j, hj⟩ := List.mem_iff_getElem?.1 hx
      rw [List.getElem?_take] at hj
      split at hj
      · rename_i hjm
        rw [hz j hjm] at hj
        exact (Option.some.inj hj).symm
      · cases hj
  obtain ⟨s1, rs1, e1⟩ := loop_ok c hc pinv (fresh c q r).w y hw (List.range c.m) (by intro i hi; have := List.mem_range.1 hi; omega) s0
  obtain ⟨i1, l1, a1⟩ := loop_zero c hc pinv (fresh c q r).w y hw y.length hzz (by omega) (List.range c.m) (by intro i hi; exact List.mem_range.1 hi) s0 s1 rs1 hidle e1
  obtain ⟨s2, r2, e2⟩ := step_ok c hc pinv (fresh c q r).w y hw s1 c.m hlen
  obtain ⟨d2, v2, hv2⟩ := step_m c hc pinv (fresh c q r).w y hw s1 s2 y.length r2 hlen i1 e2
  obtain ⟨s3, rs3, e3⟩ := loop_ok c hc pinv (fresh c q r).w y hw ((List.range k).map (fun (j : Nat) => c.m + (1 + j)))
    (by intro i hi; obtain ⟨j, hj, rfl⟩ := List.mem_map.1 hi; have := List.mem_range.1 hj; omega) s2
  obtain ⟨d3, a3⟩ := loop_dead c pinv _ y _ s2 s3 rs3 d2 e3
  rw [List.length_map, List.length_range] at a3
  rw [List.length_range] at l1
  refine ⟨s3, rs1 ++ (r2 :: rs3), ?_, d3, by simp [l1, a3]; omega, ?_⟩
  · rw [hfit, loop_append, e1]
    simp only [List.cons_append, List.nil_append, loop]
    rw [e2]
    simp only
    rw [e3]
  · intro j hj
    rcases lt_trichotomy j c.m with h | h | h
    · rw [List.getElem?_append_left (by omega)]
      refine ⟨fun hx => ?_, fun hx => by omega⟩
      obtain ⟨v, hv⟩ := a1 none (List.mem_of_getElem? hx)
      cases hv
    · subst h
      rw [List.getElem?_append_right (by omega), l1, Nat.sub_self, hv2]
      simp
    · refine ⟨fun _ => h, fun _ => ?_⟩
      rw [List.getElem?_append_right (by omega), l1]
      obtain ⟨t, ht⟩ : ∃ t, j - c.m = t + 1 := ⟨j - c.m - 1, by omega⟩
      rw [ht, List.getElem?_cons_succ, a3, List.getElem?_replicate, if_pos (by omega)]

/-- C261 (window of one): with `m = 1`, which the constructor accepts, the same happens after the second sample of any
series. -/
theorem C261_window_of_one (c : Fcfg ℝ) (pinv : Mat c.d → Mat c.d) (hm : c.m = 1) (wInit y : List ℝ) (s s' : St c.d) (r : Option (List ℝ))
    (h : step c pinv wInit y s 1 = .ok (s', r)) : s'.filter = none := by
  unfold step at h
  cases e : recentHistory y wInit (1 + 1 - c.m) 1 with
  | error e' => rw [e] at h; cases h
  | ok w =>
    rw [e] at h
    cases hf : s.filter with
    | none =>
      rw [hf] at h
      have g := Prod.mk.inj (Except.ok.inj h)
      rw [← g.1]
    | some F =>
      rw [hf] at h
      simp only at h
      generalize kalman pinv F.x F.P F.Q (project c 1 w) F.R = kk at h
      cases hp : project' c 1 kk.1 with
      | nil => rw [hp] at h; cases h
      | cons p ps =>
        rw [hp] at h
        have g := Prod.mk.inj (Except.ok.inj h)
        rw [← g.1]
        exact (C261_refresh c.m 1 _ _).2 ⟨by rw [hm], by omega, Or.inl (by omega)⟩

end PyF.FkUnits
