import Verif.HW.Props2

/-!
C255: the forecasts of Holt-Winters are linear in the series; C256: a new object on a constant series.
-/

namespace PyF.HW
open PyF

/-- `w` is missing exactly if `u` and `v` are, and otherwise is `a u + b v`. -/
def Comb (a b : ℚ) (u v w : V) : Prop := (u = none ∧ v = none ∧ w = none) ∨ ∃ x y, u = some x ∧ v = some y ∧ w = some (a * x + b * y)

/-- The same for lists, entry by entry. -/
inductive CombL (a b : ℚ) : List V → List V → List V → Prop
  | nil : CombL a b [] [] []
  | cons {u v w : V} {us vs ws : List V} : Comb a b u v w → CombL a b us vs ws → CombL a b (u :: us) (v :: vs) (w :: ws)

/-- The same for tables. -/
inductive CombT (a b : ℚ) : List (List V) → List (List V) → List (List V) → Prop
  | nil : CombT a b [] [] []
  | cons {u v w : List V} {us vs ws : List (List V)} : CombL a b u v w → CombT a b us vs ws → CombT a b (u :: us) (v :: vs) (w :: ws)

/-- The same for states. -/
structure CombS (a b : ℚ) (r s t : St) : Prop where
  lev : Comb a b r.a s.a t.a
  tr : Comb a b r.b s.b t.b
  se1 : CombL a b r.s1 s.s1 t.s1
  se2 : CombL a b r.s2 s.s2 t.s2

variable {a b : ℚ}

theorem Comb.add {u v w u' v' w' : V} (h : Comb a b u v w) (h' : Comb a b u' v' w') : Comb a b (vadd u u') (vadd v v') (vadd w w') := by
  rcases h with ⟨rfl, rfl, rfl⟩ | ⟨x, y, rfl, rfl, rfl⟩
  · exact .inl ⟨rfl, rfl, rfl⟩
  · rcases h' with ⟨rfl, rfl, rfl⟩ | ⟨x', y', rfl, rfl, rfl⟩
    · exact .inl ⟨rfl, rfl, rfl⟩
    · exact .inr ⟨x + x', y + y', rfl, rfl, by simp only [vadd]; congr 1; ring⟩

theorem Comb.sub {u v w u' v' w' : V} (h : Comb a b u v w) (h' : Comb a b u' v' w') : Comb a b (vsub u u') (vsub v v') (vsub w w') := by
  rcases h with ⟨rfl, rfl, rfl⟩ | ⟨x, y, rfl, rfl, rfl⟩
  · exact .inl ⟨rfl, rfl, rfl⟩
  · rcases h' with ⟨rfl, rfl, rfl⟩ | ⟨x', y', rfl, rfl, rfl⟩
    · exact .inl ⟨rfl, rfl, rfl⟩
    · exact .inr ⟨x - x', y - y', rfl, rfl, by simp only [vsub]; congr 1; ring⟩

theorem Comb.mul {u v w : V} (k : ℚ) (h : Comb a b u v w) : Comb a b (cmul k u) (cmul k v) (cmul k w) := by
  rcases h with ⟨rfl, rfl, rfl⟩ | ⟨x, y, rfl, rfl, rfl⟩
  · exact .inl ⟨rfl, rfl, rfl⟩
  · exact .inr ⟨k * x, k * y, rfl, rfl, by simp only [cmul, Option.map_some]; congr 1; ring⟩

theorem Comb.none : Comb a b none none none := .inl ⟨rfl, rfl, rfl⟩

theorem CombL.get {us vs ws : List V} (h : CombL a b us vs ws) (i : Nat) : Comb a b (us[i]?).join (vs[i]?).join (ws[i]?).join := by
  induction h generalizing i with
  | nil => exact Comb.none
  | cons hc _ ih =>
    cases i with
    | zero => simpa using hc
    | succ i => simpa using ih i

theorem CombL.head {us vs ws : List V} (h : CombL a b us vs ws) : Comb a b us.head?.join vs.head?.join ws.head?.join := by
  cases h with
  | nil => exact Comb.none
  | cons hc _ => exact hc

theorem CombL.tail {us vs ws : List V} (h : CombL a b us vs ws) : CombL a b us.tail vs.tail ws.tail := by
  cases h with
  | nil => exact .nil
  | cons _ hs => exact hs

theorem CombL.snoc {us vs ws : List V} {u v w : V} (h : CombL a b us vs ws) (hc : Comb a b u v w) : CombL a b (us ++ [u]) (vs ++ [v]) (ws ++ [w]) := by
  induction h with
  | nil => exact .cons hc .nil
  | cons h1 _ ih => exact .cons h1 ih

theorem CombL.lengths {us vs ws : List V} (h : CombL a b us vs ws) : us.length = vs.length ∧ us.length = ws.length := by
  induction h with
  | nil => exact ⟨rfl, rfl⟩
  | cons _ _ ih => simp [ih.1.symm, ih.2.symm]

theorem CombL.drop {us vs ws : List V} (h : CombL a b us vs ws) (n : Nat) : CombL a b (us.drop n) (vs.drop n) (ws.drop n) := by
  induction h generalizing n with
  | nil => simpa using CombL.nil
  | cons h1 h2 ih =>
    cases n with
    | zero => exact .cons h1 h2
    | succ n => exact ih n

theorem CombL.last {us vs ws : List V} (h : CombL a b us vs ws) : Comb a b us.getLast?.join vs.getLast?.join ws.getLast?.join := by
  have hl := h.lengths
  rw [List.getLast?_eq_getElem?, List.getLast?_eq_getElem?, List.getLast?_eq_getElem?, ← hl.1, ← hl.2]
  exact h.get _

theorem CombL.allNone {us vs ws : List V} (h : CombL a b us vs ws) :
    us.all (fun v => v.isNone) = ws.all (fun v => v.isNone) ∧ vs.all (fun v => v.isNone) = ws.all (fun v => v.isNone) := by
  induction h with
  | nil => exact ⟨rfl, rfl⟩
  | cons h1 _ ih =>
    simp only [List.all_cons]
    rw [ih.1, ih.2]
    rcases h1 with ⟨rfl, rfl, rfl⟩ | ⟨x, y, rfl, rfl, rfl⟩ <;> exact ⟨rfl, rfl⟩

theorem CombL.replicate {u v w : V} (h : Comb a b u v w) (n : Nat) : CombL a b (List.replicate n u) (List.replicate n v) (List.replicate n w) := by
  induction n with
  | zero => exact .nil
  | succ n ih => exact .cons h ih

theorem CombL.map {ι : Type} (l : List ι) (f g k : ι → V) (h : ∀ i, Comb a b (f i) (g i) (k i)) : CombL a b (l.map f) (l.map g) (l.map k) := by
  induction l with
  | nil => exact .nil
  | cons i l ih => exact .cons (h i) ih

/-- Three configurations that differ in the constraints and the conversion only, such that storing keeps the combination. -/
structure Same (a b : ℚ) (c1 c2 c3 : Cfg) : Prop where
  p : c1.p1 = c2.p1 ∧ c1.p1 = c3.p1 ∧ c1.p2 = c2.p2 ∧ c1.p2 = c3.p2
  n : c1.nsa = c2.nsa ∧ c1.nsa = c3.nsa
  store : ∀ x y, c3.store (clip c3 (a * x + b * y)) = a * c1.store (clip c1 x) + b * c2.store (clip c2 y)

variable {c1 c2 c3 : Cfg}

theorem Comb.store (hc : Same a b c1 c2 c3) {u v w : V} (h : Comb a b u v w) :
    Comb a b (u.map (fun x => c1.store (clip c1 x))) (v.map (fun x => c2.store (clip c2 x))) (w.map (fun x => c3.store (clip c3 x))) := by
  rcases h with ⟨rfl, rfl, rfl⟩ | ⟨x, y, rfl, rfl, rfl⟩
  · exact Comb.none
  · exact .inr ⟨_, _, rfl, rfl, by simp only [Option.map_some]; rw [hc.store]⟩

theorem forecasts_comb (hc : Same a b c1 c2 c3) {r s t : St} (h : CombS a b r s t) : CombL a b (forecasts c1 r) (forecasts c2 s) (forecasts c3 t) := by
  unfold forecasts
  rw [← hc.n.1, ← hc.n.2, ← hc.p.1, ← hc.p.2.1, ← hc.p.2.2.1, ← hc.p.2.2.2]
  exact CombL.map _ _ _ _ fun i => ((h.lev.add (h.tr.mul _)).add (h.se1.get _)).add (h.se2.get _)

theorem step_comb (hc : Same a b c1 c2 c3) (p : Pars) {r s t : St} (h : CombS a b r s t) {u v w : V} (hy : Comb a b u v w) :
    CombS a b (step c1 p r u) (step c2 p s v) (step c3 p t w) := by
  have h1 := h.se1.head
  have h2 := h.se2.head
  have ha := (((hy.sub h1).sub h2).mul p.alpha).add ((h.lev.add h.tr).mul (1 - p.alpha))
  exact ⟨ha, ((ha.sub h.lev).mul p.beta).add (h.tr.mul (1 - p.beta)),
    h.se1.tail.snoc (((((hy.sub ha).sub h2).mul p.g1).add (h1.mul (1 - p.g1))).store hc),
    h.se2.tail.snoc (((((hy.sub ha).sub h1).mul p.g2).add (h2.mul (1 - p.g2))).store hc)⟩

theorem runLoop_comb (hc : Same a b c1 c2 c3) (p : Pars) {us vs ws : List V} (hy : CombL a b us vs ws) : ∀ {r s t : St}, CombS a b r s t →
    CombS a b (runLoop c1 p r us).1 (runLoop c2 p s vs).1 (runLoop c3 p t ws).1 ∧ CombT a b (runLoop c1 p r us).2 (runLoop c2 p s vs).2 (runLoop c3 p t ws).2 := by
  induction hy with
  | nil => intro r s t h; exact ⟨h, .nil⟩
  | cons h1 _ ih =>
    intro r s t h
    have hs := step_comb hc p h h1
    exact ⟨(ih hs).1, .cons (forecasts_comb hc hs) (ih hs).2⟩

theorem start_comb (hc : Same a b c1 c2 c3) {r s t : St} (h : CombS a b r s t) {u v w : V} (hl : Comb a b u v w) :
    CombS a b (start c1 r u) (start c2 s v) (start c3 t w) := by
  have key : ∀ {u v w : V}, Comb a b u v w → Comb a b (some (u.getD 0)) (some (v.getD 0)) (some (w.getD 0)) := by
    intro u v w h
    rcases h with ⟨rfl, rfl, rfl⟩ | ⟨x, y, rfl, rfl, rfl⟩
    · exact .inr ⟨0, 0, rfl, rfl, by simp⟩
    · exact .inr ⟨x, y, rfl, rfl, rfl⟩
  have hs : ∀ {us vs ws : List V} (n : Nat), CombL a b us vs ws → CombL a b (seasonInit n us u) (seasonInit n vs v) (seasonInit n ws w) := by
    intro us vs ws n h
    unfold seasonInit
    rw [h.allNone.1, h.allNone.2]
    by_cases hh : ws.all (fun v => v.isNone) = true
    · rw [if_pos hh, if_pos hh, if_pos hh]; exact CombL.replicate hl n
    · rw [if_neg hh, if_neg hh, if_neg hh]; exact h
  refine ⟨key h.lev, key h.tr, ?_, ?_⟩
  · show CombL a b (seasonInit c1.p1 r.s1 u) (seasonInit c2.p1 s.s1 v) (seasonInit c3.p1 t.s1 w)
    rw [← hc.p.1, ← hc.p.2.1]; exact hs _ h.se1
  · show CombL a b (seasonInit c1.p2 r.s2 u) (seasonInit c2.p2 s.s2 v) (seasonInit c3.p2 t.s2 w)
    rw [← hc.p.2.2.1, ← hc.p.2.2.2]; exact hs _ h.se2

theorem getLast?_join {l : List V} {v : V} (h : l.getLast? = some v) : l.getLast?.join = v := by rw [h]; rfl

theorem run_comb (hc : Same a b c1 c2 c3) (p : Pars) {us vs ws : List V} (hy : CombL a b us vs ws) (h0 : us ≠ []) {r s t : St} (h : CombS a b r s t) :
    ∃ r' s' t' P Q R, run c1 p r us = .ok (r', P) ∧ run c2 p s vs = .ok (s', Q) ∧ run c3 p t ws = .ok (t', R) ∧ CombS a b r' s' t' ∧ CombT a b P Q R := by
  have hv : vs ≠ [] := by intro e; rw [e] at hy; cases hy; exact h0 rfl
  have hw : ws ≠ [] := by intro e; rw [e] at hy; cases hy; exact h0 rfl
  have e1 := List.getLast?_eq_some_getLast h0
  have e2 := List.getLast?_eq_some_getLast hv
  have e3 := List.getLast?_eq_some_getLast hw
  have hl := hy.last
  rw [getLast?_join e1, getLast?_join e2, getLast?_join e3] at hl
  have hk := runLoop_comb hc p hy (start_comb hc h hl)
  exact ⟨_, _, _, _, _, _, by unfold run; rw [e1], by unfold run; rw [e2], by unfold run; rw [e3], hk.1, hk.2⟩

theorem reinit_comb (hc : Same a b c1 c2 c3) (p : Pars) (h1 : 1 ≤ c1.p1) {us vs ws : List V} (hy : CombL a b us vs ws) (h0 : us ≠ []) (n : Nat) :
    ∀ {r s t : St}, CombS a b r s t → ∃ r' s' t', reinit c1 p r us n = .ok r' ∧ reinit c2 p s vs n = .ok s' ∧ reinit c3 p t ws n = .ok t' ∧ CombS a b r' s' t' := by
  induction n with
  | zero => intro r s t h; exact ⟨r, s, t, rfl, rfl, rfl, h⟩
  | succ n ih =>
    intro r s t h
    have hd : us.drop (us.length - max c1.p1 c1.p2) ≠ [] := by
      intro e
      have := congrArg List.length e
      rw [List.length_drop, List.length_nil] at this
      have h2 := le_max_left c1.p1 c1.p2
      have h3 := List.length_pos_of_ne_nil h0
      omega
    have hyd := hy.drop (us.length - max c1.p1 c1.p2)
    obtain ⟨r', s', t', P, Q, R, e1, e2, e3, hs, -⟩ := run_comb hc p hyd hd h
    obtain ⟨r'', s'', t'', f1, f2, f3, hk⟩ := ih hs
    refine ⟨r'', s'', t'', ?_, ?_, ?_, hk⟩
    · unfold reinit; rw [e1]; exact f1
    · unfold reinit; rw [← hy.lengths.1, ← hc.p.1, ← hc.p.2.2.1, e2]; exact f2
    · unfold reinit; rw [← hy.lengths.2, ← hc.p.2.1, ← hc.p.2.2.2, e3]; exact f3

theorem fresh_comb (hc : Same a b c1 c2 c3) : CombS a b (fresh c1) (fresh c2) (fresh c3) := by
  refine ⟨Comb.none, Comb.none, ?_, ?_⟩
  · show CombL a b (List.replicate c1.p1 none) (List.replicate c2.p1 none) (List.replicate c3.p1 none)
    rw [← hc.p.1, ← hc.p.2.1]; exact CombL.replicate Comb.none _
  · show CombL a b (List.replicate c1.p2 none) (List.replicate c2.p2 none) (List.replicate c3.p2 none)
    rw [← hc.p.2.2.1, ← hc.p.2.2.2]; exact CombL.replicate Comb.none _

theorem serve_comb (hc : Same a b c1 c2 c3) (p : Pars) {us vs ws : List V} (hy : CombL a b us vs ws) (h0 : us ≠ []) {r s t : St} (h : CombS a b r s t) :
    ∃ r' s' t' P Q R, predict c1 p r us = .ok (r', P) ∧ predict c2 p s vs = .ok (s', Q) ∧ predict c3 p t ws = .ok (t', R) ∧ CombS a b r' s' t' ∧ CombT a b P Q R := by
  have hv : vs ≠ [] := by intro e; rw [e] at hy; cases hy; exact h0 rfl
  have hw : ws ≠ [] := by intro e; rw [e] at hy; cases hy; exact h0 rfl
  unfold predict
  rw [if_neg h0, if_neg hv, if_neg hw]
  exact run_comb hc _ hy h0 h

theorem fit_predict_comb (hc : Same a b c1 c2 c3) (p : Pars) (h1 : 1 ≤ c1.p1) {us vs ws us' vs' ws' : List V} (hy : CombL a b us vs ws) (h0 : us ≠ [])
    (hy' : CombL a b us' vs' ws') (h0' : us' ≠ []) :
    ∃ r s t r' s' t' P Q R, fitState c1 p (fresh c1) us = .ok r ∧ fitState c2 p (fresh c2) vs = .ok s ∧ fitState c3 p (fresh c3) ws = .ok t ∧
      predict c1 p r us' = .ok (r', P) ∧ predict c2 p s vs' = .ok (s', Q) ∧ predict c3 p t ws' = .ok (t', R) ∧ CombT a b P Q R := by
  obtain ⟨r1, s1, t1, _, _, _, e1, e2, e3, hs, -⟩ := run_comb hc p hy h0 (fresh_comb hc)
  obtain ⟨r2, s2, t2, f1, f2, f3, hk⟩ := reinit_comb hc p h1 hy h0 20 hs
  obtain ⟨r3, s3, t3, P, Q, R, g1, g2, g3, -, ht⟩ := serve_comb hc p hy' h0' hk
  exact ⟨r2, s2, t2, r3, s3, t3, P, Q, R, by unfold fitState; rw [e1]; exact f1, by unfold fitState; rw [e2]; exact f2, by unfold fitState; rw [e3]; exact f3, g1, g2, g3, ht⟩

theorem CombT.at {P Q R : List (List V)} (h : CombT a b P Q R) (i j : Nat) :
    Comb a b ((P.getD i [])[j]?).join ((Q.getD i [])[j]?).join ((R.getD i [])[j]?).join := by
  induction h generalizing i with
  | nil => simpa using Comb.none
  | cons h1 _ ih =>
    cases i with
    | zero => simpa using h1.get j
    | succ i => simpa using ih i

/-- Numbers as the cells of a complete column. -/
def col (l : List ℚ) : List V := l.map some

theorem col_comb (a b : ℚ) : ∀ (y z : List ℚ), y.length = z.length → CombL a b (col y) (col z) (col (List.zipWith (fun u v => a * u + b * v) y z))
  | [], [], _ => .nil
  | [], _ :: _, h => by simp at h
  | _ :: _, [], h => by simp at h
  | u :: y, v :: z, h => .cons (.inr ⟨u, v, rfl, rfl, rfl⟩) (col_comb a b y z (by simpa using h))

/-- C255: without constraints and on float columns, an object fitted to `a y + b z` and asked on `a y' + b z'` forecasts `a` times what the object fitted to
`y` forecasts on `y'`, plus `b` times what the one fitted to `z` forecasts on `z'`, in every row and step. -/
theorem C255_superposition (c : Cfg) (p : Pars) (h1 : 1 ≤ c.p1) (hst : c.store = id) (hlo : c.lo = none) (hhi : c.hi = none) (a b : ℚ) (y z y' z' : List ℚ)
    (hl : y.length = z.length) (hl' : y'.length = z'.length) (h0 : y ≠ []) (h0' : y' ≠ []) :
    ∃ r s t r' s' t' P Q R, fitState c p (fresh c) (col y) = .ok r ∧ fitState c p (fresh c) (col z) = .ok s ∧
      fitState c p (fresh c) (col (List.zipWith (fun u v => a * u + b * v) y z)) = .ok t ∧ predict c p r (col y') = .ok (r', P) ∧ predict c p s (col z') = .ok (s', Q) ∧
      predict c p t (col (List.zipWith (fun u v => a * u + b * v) y' z')) = .ok (t', R) ∧
      ∀ i j : Nat, Comb a b ((P.getD i [])[j]?).join ((Q.getD i [])[j]?).join ((R.getD i [])[j]?).join := by
  have hc : Same a b c c c := ⟨⟨rfl, rfl, rfl, rfl⟩, ⟨rfl, rfl⟩, fun x y => by simp [hst, clip, hlo, hhi]⟩
  obtain ⟨r, s, t, r', s', t', P, Q, R, e1, e2, e3, e4, e5, e6, h⟩ := fit_predict_comb hc p h1 (col_comb a b y z hl) (by simpa [col] using h0)
    (col_comb a b y' z' hl') (by simpa [col] using h0')
  exact ⟨r, s, t, r', s', t', P, Q, R, e1, e2, e3, e4, e5, e6, fun i j => h.at i j⟩

/-- The configuration in other units: the constraints are measured in them, too. -/
def rescale (k : ℚ) (c : Cfg) : Cfg := { c with lo := c.lo.map (k * ·), hi := c.hi.map (k * ·) }

theorem clip_rescale (k : ℚ) (hk : 0 < k) (c : Cfg) (x : ℚ) : clip (rescale k c) (k * x) = k * clip c x := by
  unfold clip rescale
  cases c.lo <;> cases c.hi <;> simp [mul_max_of_nonneg _ _ hk.le, mul_min_of_nonneg _ _ hk.le]

theorem comb_scale (k : ℚ) : ∀ y : List V, CombL k 0 y y (y.map (Option.map (k * ·)))
  | [] => .nil
  | none :: y => .cons Comb.none (comb_scale k y)
  | some x :: y => .cons (.inr ⟨x, x, rfl, rfl, by simp⟩) (comb_scale k y)

/-- C255 (units): also with constraints and with missing values, measuring the series and the constraints in other units changes the forecasts by the same
factor; missing forecasts stay missing. -/
theorem C255_units (c : Cfg) (p : Pars) (h1 : 1 ≤ c.p1) (hst : c.store = id) (k : ℚ) (hk : 0 < k) (y y' : List V) (h0 : y ≠ []) (h0' : y' ≠ []) :
    ∃ r t r' t' P R, fitState c p (fresh c) y = .ok r ∧ predict c p r y' = .ok (r', P) ∧
      fitState (rescale k c) p (fresh (rescale k c)) (y.map (Option.map (k * ·))) = .ok t ∧ predict (rescale k c) p t (y'.map (Option.map (k * ·))) = .ok (t', R) ∧
      ∀ i j : Nat, ((R.getD i [])[j]?).join = ((P.getD i [])[j]?).join.map (k * ·) := by
  have hc : Same k 0 c c (rescale k c) := ⟨⟨rfl, rfl, rfl, rfl⟩, ⟨rfl, rfl⟩, fun x y => by
    show c.store (clip (rescale k c) (k * x + 0 * y)) = _
    rw [zero_mul, add_zero, clip_rescale k hk, hst, zero_mul, add_zero]; rfl⟩
  obtain ⟨r, s, t, r', s', t', P, Q, R, e1, e2, e3, e4, e5, e6, h⟩ := fit_predict_comb hc p h1 (comb_scale k y) h0 (comb_scale k y') h0'
  refine ⟨r, t, r', t', P, R, e1, e4, e3, e6, fun i j => ?_⟩
  rcases h.at i j with ⟨h1, -, h3⟩ | ⟨x, y, h1, -, h3⟩
  · rw [h1, h3]; rfl
  · rw [h1, h3]; simp

/-! ### C256 -/

/-- States of a new object inside the first period on the constant series `v`, after `n` samples: the seasonal entries not yet replaced are still `v`. -/
structure Warm (c : Cfg) (α v : ℚ) (n : Nat) (st : St) : Prop where
  a : st.a = some (-(v * (1 - (1 - α) ^ n)))
  b : st.b = some 0
  l1 : st.s1.length = c.p1
  l2 : st.s2.length = c.p2
  s1 : ∀ i, i + n < c.p1 → st.s1[i]? = some (some v)
  s2 : ∀ i, i + n < c.p2 → st.s2[i]? = some (some v)

theorem warm_step {c : Cfg} {p : Pars} {v : ℚ} {n : Nat} {st : St} (h : Warm c p.alpha v n st) (hb : p.beta = 0) (h1 : n < c.p1) (h2 : n < c.p2) :
    Warm c p.alpha v (n + 1) (step c p st (some v)) := by
  have e1 : st.s1.head?.join = some v := by rw [head_join, h.s1 0 (by omega)]; rfl
  have e2 : st.s2.head?.join = some v := by rw [head_join, h.s2 0 (by omega)]; rfl
  have ha : (step c p st (some v)).a = some (-(v * (1 - (1 - p.alpha) ^ (n + 1)))) := by
    simp only [step, e1, e2, h.a, h.b, vsub, vadd, cmul, Option.map_some]
    congr 1
    ring
  have key : ∀ (s : List V) (q : Nat) (x : V), s.length = q → (∀ i, i + n < q → s[i]? = some (some v)) → ∀ i, i + (n + 1) < q → (s.tail ++ [x])[i]? = some (some v) := by
    intro s q x hl hs i hi
    rw [List.getElem?_append_left (by rw [List.length_tail]; omega), List.getElem?_tail]
    exact hs (i + 1) (by omega)
  refine ⟨ha, ?_, ?_, ?_, ?_, ?_⟩
  · simp only [step, e1, e2, h.a, h.b, vsub, vadd, cmul, Option.map_some, hb]
    congr 1
    ring
  · simp only [step, List.length_append, List.length_tail, h.l1, List.length_singleton]; omega
  · simp only [step, List.length_append, List.length_tail, h.l2, List.length_singleton]; omega
  · exact key st.s1 c.p1 _ h.l1 h.s1
  · exact key st.s2 c.p2 _ h.l2 h.s2

theorem warm_forecast {c : Cfg} {α v : ℚ} {n : Nat} {st : St} (h : Warm c α v n st) (i : Nat) (hi : i < c.nsa) (h1 : i + n < c.p1) (h2 : i + n < c.p2) :
    (forecasts c st)[i]? = some (some (v * (1 + (1 - α) ^ n))) := by
  unfold forecasts
  rw [List.getElem?_map, List.getElem?_range hi, Option.map_some, Nat.mod_eq_of_lt (by omega), Nat.mod_eq_of_lt (by omega), h.s1 i h1, h.s2 i h2, h.a, h.b]
  simp only [vadd, cmul, Option.map_some, Option.join_some]
  congr 2
  ring

theorem warm_loop {c : Cfg} {p : Pars} {v : ℚ} (hb : p.beta = 0) : ∀ (k n : Nat) (st : St), Warm c p.alpha v n st → ∀ t i, t < k → i < c.nsa →
    i + (n + t + 1) < c.p1 → i + (n + t + 1) < c.p2 → ((runLoop c p st (List.replicate k (some v))).2.getD t [])[i]? = some (some (v * (1 + (1 - p.alpha) ^ (n + t + 1)))) := by
  intro k
  induction k with
  | zero => intro n st _ t i ht; omega
  | succ k ih =>
    intro n st h t i ht hi h1 h2
    have hw := warm_step h hb (by omega) (by omega)
    rw [List.replicate_succ]
    cases t with
    | zero =>
      simp only [runLoop, List.getD_cons_zero]
      exact warm_forecast hw i hi (by omega) (by omega)
    | succ t =>
      simp only [runLoop, List.getD_cons_succ]
      rw [ih (n + 1) _ hw t i (by omega) hi (by omega) (by omega)]
      rw [show n + 1 + t + 1 = n + (t + 1) + 1 by omega]

/-- C256: a new object run over a constant series `v` (β = 0, the default). As long as no replaced seasonal entry is read, the forecast made at sample `t` is
`v (1 + (1-α)^(t+1))`: both seasons start at the last value of the series, so the level they share is counted twice and the excess decays with α only. -/
theorem C256_warm_up (c : Cfg) (p : Pars) (hb : p.beta = 0) (v : ℚ) (k : Nat) (hk : 1 ≤ k) :
    ∃ st rows, run c p (fresh c) (List.replicate k (some v)) = .ok (st, rows) ∧
      ∀ t i, t < k → i < c.nsa → i + t + 1 < c.p1 → i + t + 1 < c.p2 → (rows.getD t [])[i]? = some (some (v * (1 + (1 - p.alpha) ^ (t + 1)))) := by
  have hne : List.replicate k (some v) ≠ [] := by simp; omega
  have hl : (List.replicate k (some v)).getLast? = some (some v) := by
    rw [List.getLast?_eq_some_getLast hne, List.getLast_replicate]
  have hw : Warm c p.alpha v 0 (start c (fresh c) (some v)) := by
    have hs : ∀ q, seasonInit q (List.replicate q (none : V)) (some v) = List.replicate q (some v) := by
      intro q
      unfold seasonInit
      rw [if_pos]
      rw [List.all_eq_true]
      intro x hx
      rw [(List.mem_replicate.1 hx).2]
      rfl
    refine ⟨?_, rfl, ?_, ?_, ?_, ?_⟩
    · simp [start, fresh]
    · simp only [start, fresh, hs, List.length_replicate]
    · simp only [start, fresh, hs, List.length_replicate]
    · intro i hi; simp only [start, fresh, hs]; rw [List.getElem?_replicate, if_pos (by omega)]
    · intro i hi; simp only [start, fresh, hs]; rw [List.getElem?_replicate, if_pos (by omega)]
  refine ⟨_, _, by unfold run; rw [hl], ?_⟩
  intro t i ht hi h1 h2
  have := warm_loop hb k 0 _ hw t i ht hi (by omega) (by omega)
  rw [this, Nat.zero_add]

/-- C256 (offset): so adding a constant to the series does not add it to the forecasts of a new object. Inside the first period the forecasts move by
`(1 + (1-α)^(t+1))` times the constant. -/
theorem C256_offset (c : Cfg) (p : Pars) (hb : p.beta = 0) (hst : c.store = id) (hlo : c.lo = none) (hhi : c.hi = none) (v : ℚ) (y : List ℚ) (h0 : y ≠ []) :
    ∃ st st' rows rows', run c p (fresh c) (col y) = .ok (st, rows) ∧ run c p (fresh c) (col (y.map (· + v))) = .ok (st', rows') ∧
      ∀ t i, t < y.length → i < c.nsa → i + t + 1 < c.p1 → i + t + 1 < c.p2 →
        ((rows'.getD t [])[i]?).join = ((rows.getD t [])[i]?).join.map (fun x => x + v * (1 + (1 - p.alpha) ^ (t + 1))) := by
  have hc : Same 1 1 c c c := ⟨⟨rfl, rfl, rfl, rfl⟩, ⟨rfl, rfl⟩, fun x y => by simp [hst, clip, hlo, hhi]⟩
  have hz : List.zipWith (fun u w => 1 * u + 1 * w) y (List.replicate y.length v) = y.map (· + v) := by
    apply List.ext_getElem
    · simp
    · intro i h1 h2; simp
  have hcc : col (List.replicate y.length v) = List.replicate y.length (some v) := by simp [col]
  have hy := col_comb 1 1 y (List.replicate y.length v) (by simp)
  rw [hz, hcc] at hy
  obtain ⟨r, s, t, P, Q, R, e1, e2, e3, -, hT⟩ := run_comb hc p hy (by simpa [col] using h0) (fresh_comb hc)
  obtain ⟨st, rows, e4, h4⟩ := C256_warm_up c p hb v y.length (List.length_pos_of_ne_nil h0)
  rw [e2] at e4
  have := (Prod.mk.inj (Except.ok.inj e4)).2
  subst this
  refine ⟨r, t, P, R, e1, e3, ?_⟩
  intro i j hi hj h1 h2
  have hq := h4 i j hi hj h1 h2
  have hk := hT.at i j
  rw [hq] at hk
  rcases hk with ⟨-, h, -⟩ | ⟨x, w, h1, h2, h3⟩
  · cases h
  · rw [h1, h3]
    have : w = v * (1 + (1 - p.alpha) ^ (i + 1)) := (Option.some.inj h2).symm
    rw [this]
    simp

/-! ### Concrete instances -/

def exLin : Cfg := { p1 := 2, p2 := 4, nsa := 2, lo := none, hi := none, store := id }
def exLinC : Cfg := { exLin with lo := some (-1), hi := some 5 }
def exLinP : Pars := { alpha := 1/2, beta := 0, g1 := 1/4, g2 := 1/4 }
def exRows (r : Except PyErr (St × List (List V))) : Option (List (List V)) := match r with | .ok (_, R) => some R | .error _ => none

example : exRows (run exLin exLinP (fresh exLin) (col [4, 4, 4])) = some ((exRows (run exLin exLinP (fresh exLin) (col [4, 4, 4]))).getD []) ∧
    (((exRows (run exLin exLinP (fresh exLin) (col [4, 4, 4]))).getD []).getD 0 []).head? = some (some (4 * (1 + (1 - 1/2) ^ 1))) := by decide +kernel
/-- doubling the series and the constraints -/
example : exRows (run (rescale 2 exLinC) exLinP (fresh (rescale 2 exLinC)) [some 4, some 6, none]) =
    (exRows (run exLinC exLinP (fresh exLinC) [some 2, some 3, none])).map (fun R => R.map (fun r => r.map (Option.map (2 * ·)))) := by decide +kernel
/-- the hypotheses of the theorems are met -/
example : 1 ≤ exLin.p1 ∧ exLin.store = id ∧ exLin.lo = none ∧ exLin.hi = none ∧ exLinP.beta = 0 ∧ (0 + 0 + 1 < exLin.p1 ∧ 0 + 0 + 1 < exLin.p2) := ⟨by decide, rfl, rfl, rfl, rfl, by decide⟩

end PyF.HW
