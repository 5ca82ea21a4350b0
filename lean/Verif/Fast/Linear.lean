import Verif.Fast.Props

/-!
C251: the forecasts of a new `Fourier_es` are linear in the series.
-/

namespace PyF.Fast

variable {K : Type} [Field K]

/-- `w` combines `u` and `v` entry by entry. -/
def LinList (a b : K) (u v w : List K) : Prop := u.length = v.length ∧ w = List.zipWith (fun x y => a * x + b * y) u v

theorem linList_getD {a b : K} {u v w : List K} (h : LinList a b u v w) (i : Nat) : w.getD i 0 = a * u.getD i 0 + b * v.getD i 0 := by
  obtain ⟨hl, rfl⟩ := h
  simp only [List.getD_eq_getElem?_getD, List.getElem?_zipWith]
  by_cases hi : i < u.length
  · have hi' : i < v.length := by omega
    simp [List.getElem?_eq_getElem hi, List.getElem?_eq_getElem hi']
  · rw [List.getElem?_eq_none (by omega), List.getElem?_eq_none (by omega)]
    simp

theorem linList_of_getD {a b : K} {u v w : List K} (h1 : u.length = v.length) (h2 : w.length = u.length)
    (h : ∀ i, w.getD i 0 = a * u.getD i 0 + b * v.getD i 0) : LinList a b u v w := by
  refine ⟨h1, List.ext_getElem (by simp; omega) ?_⟩
  intro i hi hi'
  have hu : i < u.length := by omega
  have hv : i < v.length := by omega
  have := h i
  simp only [List.getD_eq_getElem?_getD, List.getElem?_eq_getElem hi, List.getElem?_eq_getElem hu, List.getElem?_eq_getElem hv, Option.getD_some] at this
  simp [this]

theorem linList_append {a b : K} {u v w u' v' w' : List K} (h : LinList a b u v w) (h' : LinList a b u' v' w') : LinList a b (u ++ u') (v ++ v') (w ++ w') := by
  obtain ⟨hl, rfl⟩ := h
  obtain ⟨hl', rfl⟩ := h'
  exact ⟨by simp [hl, hl'], (List.zipWith_append hl).symm⟩

theorem linList_take {a b : K} {u v w : List K} (h : LinList a b u v w) (n : Nat) : LinList a b (u.take n) (v.take n) (w.take n) := by
  obtain ⟨hl, rfl⟩ := h
  exact ⟨by simp [hl], by simp [List.take_zipWith]⟩

theorem linList_drop {a b : K} {u v w : List K} (h : LinList a b u v w) (n : Nat) : LinList a b (u.drop n) (v.drop n) (w.drop n) := by
  obtain ⟨hl, rfl⟩ := h
  exact ⟨by simp [hl], by simp [List.drop_zipWith]⟩

theorem linList_length {a b : K} {u v w : List K} (h : LinList a b u v w) : w.length = u.length := by
  obtain ⟨hl, rfl⟩ := h
  simp [hl]

theorem linList_lastM {a b : K} {u v w : List K} (h : LinList a b u v w) (m : Nat) : LinList a b (lastM m u) (lastM m v) (lastM m w) := by
  unfold lastM
  rw [linList_length h, ← h.1]
  exact linList_drop h _

theorem getLastD_eq_getD (l : List K) : l.getLastD 0 = l.getD (l.length - 1) 0 := by
  rw [List.getLastD_eq_getLast?, List.getLast?_eq_getElem?, List.getD_eq_getElem?_getD]

theorem linList_getLastD {a b : K} {u v w : List K} (h : LinList a b u v w) : w.getLastD 0 = a * u.getLastD 0 + b * v.getLastD 0 := by
  rw [getLastD_eq_getD, getLastD_eq_getD, getLastD_eq_getD, linList_getD h, linList_length h, ← h.1]

/-- The state `t` combines `r` and `s`. -/
structure LinWork {d : Nat} (a b : K) (r s t : Work K d) : Prop where
  x : ∀ k, t.x k = a * r.x k + b * s.x k
  eps : t.eps = a * r.eps + b * s.eps
  last : t.last = a * r.last + b * s.last

theorem dot_comb {d : Nat} (a b : K) (g x y z : Fin (d + 1) → K) (h : ∀ k, z k = a * x k + b * y k) : dot g z = a * dot g x + b * dot g y := by
  unfold dot
  rw [Finset.mul_sum, Finset.mul_sum, ← Finset.sum_add_distrib]
  exact Finset.sum_congr rfl fun k _ => by rw [h k]; ring

theorem sum_lin {ι : Type} (a b : K) (l : List ι) (f g h : ι → K) (hh : ∀ i, h i = a * f i + b * g i) : (l.map h).sum = a * (l.map f).sum + b * (l.map g).sum := by
  induction l with
  | nil => simp
  | cons i l ih => simp only [List.map_cons, List.sum_cons, ih, hh i]; ring

/-- One step keeps the combination. -/
theorem fStep_lin (c : Fcfg K) (a b : K) (w1 w2 w3 y1 y2 y3 : List K) (hw : LinList a b w1 w2 w3) (hy : LinList a b y1 y2 y3) (s1 s2 s3 : Work K c.d)
    (hs : LinWork a b s1 s2 s3) (i : Nat) (hm : 1 ≤ c.m) (hl : w1.length = c.m) (hi : i < y1.length) (t1 t2 t3 : Work K c.d) (r1 r2 r3 : List K)
    (h1 : fStep c w1 y1 s1 i = .ok (t1, r1)) (h2 : fStep c w2 y2 s2 i = .ok (t2, r2)) (h3 : fStep c w3 y3 s3 i = .ok (t3, r3)) :
    LinWork a b t1 t2 t3 ∧ LinList a b r1 r2 r3 := by
  have hl2 : w2.length = c.m := by rw [← hw.1]; exact hl
  have hl3 : w3.length = c.m := by rw [linList_length hw]; exact hl
  have e1 := C42_window y1 w1 i (by omega) hi
  have e2 := C42_window y2 w2 i (by omega) (by rw [← hy.1]; exact hi)
  have e3 := C42_window y3 w3 i (by omega) (by rw [linList_length hy]; exact hi)
  rw [hl] at e1
  rw [hl2] at e2
  rw [hl3] at e3
  unfold fStep at h1 h2 h3
  rw [e1] at h1
  rw [e2] at h2
  rw [e3] at h3
  have hwin : LinList a b (lastM c.m (w1 ++ y1.take (i + 1))) (lastM c.m (w2 ++ y2.take (i + 1))) (lastM c.m (w3 ++ y3.take (i + 1))) :=
    linList_lastM (linList_append hw (linList_take hy _)) _
  generalize lastM c.m (w1 ++ y1.take (i + 1)) = v1 at h1 hwin
  generalize lastM c.m (w2 ++ y2.take (i + 1)) = v2 at h2 hwin
  generalize lastM c.m (w3 ++ y3.take (i + 1)) = v3 at h3 hwin
  simp only at h1 h2 h3
  have hproj : ∀ k, project c i v3 k = a * project c i v1 k + b * project c i v2 k := by
    intro k
    unfold project
    apply sum_lin
    intro r
    rw [linList_getD hwin r]
    ring
  have heps := linList_getLastD hwin
  have hx : ∀ k, c.alpha * project c i v3 k + (1 - c.alpha) * s3.x k =
      a * (c.alpha * project c i v1 k + (1 - c.alpha) * s1.x k) + b * (c.alpha * project c i v2 k + (1 - c.alpha) * s2.x k) := by
    intro k
    rw [hproj k, hs.x k]
    ring
  have he : c.omega * (v3.getLastD 0 - s3.last) + (1 - c.omega) * s3.eps =
      a * (c.omega * (v1.getLastD 0 - s1.last) + (1 - c.omega) * s1.eps) + b * (c.omega * (v2.getLastD 0 - s2.last) + (1 - c.omega) * s2.eps) := by
    rw [heps, hs.last, hs.eps]
    ring
  generalize hX1 : (fun k => c.alpha * project c i v1 k + (1 - c.alpha) * s1.x k) = x1 at h1
  generalize hX2 : (fun k => c.alpha * project c i v2 k + (1 - c.alpha) * s2.x k) = x2 at h2
  generalize hX3 : (fun k => c.alpha * project c i v3 k + (1 - c.alpha) * s3.x k) = x3 at h3
  have hx' : ∀ k, x3 k = a * x1 k + b * x2 k := by
    intro k
    rw [← hX1, ← hX2, ← hX3]
    exact hx k
  generalize c.omega * (v1.getLastD 0 - s1.last) + (1 - c.omega) * s1.eps = p1 at h1 he
  generalize c.omega * (v2.getLastD 0 - s2.last) + (1 - c.omega) * s2.eps = p2 at h2 he
  generalize c.omega * (v3.getLastD 0 - s3.last) + (1 - c.omega) * s3.eps = p3 at h3 he
  have hP : LinList a b (project' c i x1) (project' c i x2) (project' c i x3) := by
    unfold project'
    refine ⟨by simp, ?_⟩
    rw [List.zipWith_map, List.zipWith_self]
    apply List.map_congr_left
    intro r _
    exact dot_comb a b _ _ _ _ hx'
  cases hp1 : project' c i x1 with
  | nil => rw [hp1] at h1; cases h1
  | cons q1 l1 =>
    cases hp2 : project' c i x2 with
    | nil => rw [hp2] at h2; cases h2
    | cons q2 l2 =>
      cases hp3 : project' c i x3 with
      | nil => rw [hp3] at h3; cases h3
      | cons q3 l3 =>
        rw [hp1] at h1
        rw [hp2] at h2
        rw [hp3] at h3
        rw [hp1, hp2, hp3] at hP
        have g1 := Prod.mk.inj (Except.ok.inj h1)
        have g2 := Prod.mk.inj (Except.ok.inj h2)
        have g3 := Prod.mk.inj (Except.ok.inj h3)
        rw [← g1.1, ← g1.2, ← g2.1, ← g2.2, ← g3.1, ← g3.2]
        refine ⟨⟨hx', he, ?_⟩, ?_⟩
        · have := linList_getD hP 0
          simpa using this
        · unfold addEps
          refine ⟨by simp, ?_⟩
          rw [List.zipWith_map, List.zipWith_self]
          apply List.map_congr_left
          intro h _
          rw [linList_getD hP h, he]
          ring

/-- The rows `R` combine the rows `P` and `Q`. -/
def LinRows (a b : K) (P Q R : List (List K)) : Prop := P.length = Q.length ∧ R.length = P.length ∧ ∀ i, LinList a b (P.getD i []) (Q.getD i []) (R.getD i [])

theorem fLoop_lin (c : Fcfg K) (a b : K) (w1 w2 w3 y1 y2 y3 : List K) (hw : LinList a b w1 w2 w3) (hy : LinList a b y1 y2 y3) (hm : 1 ≤ c.m) (hl : w1.length = c.m)
    (is : List Nat) (hi : ∀ i ∈ is, i < y1.length) : ∀ (s1 s2 s3 t1 t2 t3 : Work K c.d) (r1 r2 r3 : List (List K)), LinWork a b s1 s2 s3 →
      fLoop c w1 y1 s1 is = .ok (t1, r1) → fLoop c w2 y2 s2 is = .ok (t2, r2) → fLoop c w3 y3 s3 is = .ok (t3, r3) →
      LinWork a b t1 t2 t3 ∧ LinRows a b r1 r2 r3 := by
  induction is with
  | nil =>
    intro s1 s2 s3 t1 t2 t3 r1 r2 r3 hs h1 h2 h3
    have g1 := Prod.mk.inj (Except.ok.inj h1)
    have g2 := Prod.mk.inj (Except.ok.inj h2)
    have g3 := Prod.mk.inj (Except.ok.inj h3)
    rw [← g1.1, ← g1.2, ← g2.1, ← g2.2, ← g3.1, ← g3.2]
    exact ⟨hs, rfl, rfl, fun i => ⟨by simp, by simp⟩⟩
  | cons i is ih =>
    intro s1 s2 s3 t1 t2 t3 r1 r2 r3 hs h1 h2 h3
    unfold fLoop at h1 h2 h3
    cases e1 : fStep c w1 y1 s1 i with
    | error e => rw [e1] at h1; cases h1
    | ok p1 =>
      cases e2 : fStep c w2 y2 s2 i with
      | error e => rw [e2] at h2; cases h2
      | ok p2 =>
        cases e3 : fStep c w3 y3 s3 i with
        | error e => rw [e3] at h3; cases h3
        | ok p3 =>
          obtain ⟨u1, q1⟩ := p1
          obtain ⟨u2, q2⟩ := p2
          obtain ⟨u3, q3⟩ := p3
          rw [e1] at h1
          rw [e2] at h2
          rw [e3] at h3
          simp only at h1 h2 h3
          obtain ⟨hu, hq⟩ := fStep_lin c a b w1 w2 w3 y1 y2 y3 hw hy s1 s2 s3 hs i hm hl (hi i (by simp)) u1 u2 u3 q1 q2 q3 e1 e2 e3
          cases f1 : fLoop c w1 y1 u1 is with
          | error e => rw [f1] at h1; cases h1
          | ok p1 =>
            cases f2 : fLoop c w2 y2 u2 is with
            | error e => rw [f2] at h2; cases h2
            | ok p2 =>
              cases f3 : fLoop c w3 y3 u3 is with
              | error e => rw [f3] at h3; cases h3
              | ok p3 =>
                obtain ⟨v1, k1⟩ := p1
                obtain ⟨v2, k2⟩ := p2
                obtain ⟨v3, k3⟩ := p3
                rw [f1] at h1
                rw [f2] at h2
                rw [f3] at h3
                have g1 := Prod.mk.inj (Except.ok.inj h1)
                have g2 := Prod.mk.inj (Except.ok.inj h2)
                have g3 := Prod.mk.inj (Except.ok.inj h3)
                obtain ⟨hv, hk1, hk2, hk3⟩ := ih (fun j hj => hi j (by simp [hj])) u1 u2 u3 v1 v2 v3 k1 k2 k3 hu f1 f2 f3
                rw [← g1.1, ← g1.2, ← g2.1, ← g2.2, ← g3.1, ← g3.2]
                refine ⟨hv, by simp [hk1], by simp [hk2], ?_⟩
                intro j
                cases j with
                | zero => simpa using hq
                | succ j => simpa using hk3 j

/-- C251: for every two series and numbers `a`, `b`, the forecasts of a new object fitted to `a y₁ + b y₂` are `a` times those for `y₁` plus `b` times those for `y₂`, in every row and step. -/
theorem C251_superposition (c : Fcfg K) (hm : 1 ≤ c.m) (hp : c.period ≤ c.m) (hn : 1 ≤ c.nsa) (a b : K) (y1 y2 : List K) (hl : y1.length = y2.length) (h0 : y1 ≠ []) :
    ∃ (R1 R2 R3 : List (List K)) (t1 t2 t3 : Fst K c.d), fFit c (fFresh c) y1 = .ok (t1, R1) ∧ fFit c (fFresh c) y2 = .ok (t2, R2) ∧
      fFit c (fFresh c) (List.zipWith (fun u v => a * u + b * v) y1 y2) = .ok (t3, R3) ∧
      ∀ i h, (R3.getD i []).getD h 0 = a * (R1.getD i []).getD h 0 + b * (R2.getD i []).getD h 0 := by
  have hw : (fFresh c).w.length = c.m := by simp [fFresh]
  have hy3 : (List.zipWith (fun u v => a * u + b * v) y1 y2).length = y1.length := by simp [hl]
  obtain ⟨t1, R1, e1, -, -⟩ := C90_accepts c (fFresh c) y1 hw hm hp hn h0
  obtain ⟨t2, R2, e2, -, -⟩ := C90_accepts c (fFresh c) y2 hw hm hp hn (by intro h; rw [h] at hl; exact h0 (List.length_eq_zero_iff.mp hl))
  obtain ⟨t3, R3, e3, -, -⟩ := C90_accepts c (fFresh c) (List.zipWith (fun u v => a * u + b * v) y1 y2) hw hm hp hn
    (by intro h; rw [h] at hy3; exact h0 (List.length_eq_zero_iff.mp hy3.symm))
  refine ⟨R1, R2, R3, t1, t2, t3, e1, e2, e3, ?_⟩
  obtain ⟨u, l1, rfl⟩ := List.exists_cons_of_ne_nil h0
  cases y2 with
  | nil => simp at hl
  | cons v l2 =>
    have hyl : LinList a b (u :: l1) (v :: l2) (List.zipWith (fun u v => a * u + b * v) (u :: l1) (v :: l2)) := ⟨hl, rfl⟩
    have hww : LinList a b (fFresh c).w (fFresh c).w (fFresh c).w := by
      refine linList_of_getD rfl rfl fun i => ?_
      have : (fFresh c).w.getD i 0 = 0 := by
        simp only [fFresh, List.getD_eq_getElem?_getD, List.getElem?_replicate]
        split <;> rfl
      rw [this]; ring
    have hlen : (List.zipWith (fun u v => a * u + b * v) (u :: l1) (v :: l2)).length = (u :: l1).length := hy3
    rw [List.zipWith_cons_cons] at e3 hyl hlen
    unfold fRun at e1 e2 e3
    simp only at e1 e2 e3
    rw [hlen] at e3
    rw [← hl] at e2
    cases f1 : fLoop c (fFresh c).w (u :: l1) { x := initX c (fFresh c) u, w := (fFresh c).w, eps := (fFresh c).eps, last := (fFresh c).last } (List.range (u :: l1).length) with
    | error e => rw [f1] at e1; cases e1
    | ok p1 =>
      cases f2 : fLoop c (fFresh c).w (v :: l2) { x := initX c (fFresh c) v, w := (fFresh c).w, eps := (fFresh c).eps, last := (fFresh c).last } (List.range (u :: l1).length) with
      | error e => rw [f2] at e2; cases e2
      | ok p2 =>
        cases f3 : fLoop c (fFresh c).w ((a * u + b * v) :: List.zipWith (fun u v => a * u + b * v) l1 l2)
            { x := initX c (fFresh c) (a * u + b * v), w := (fFresh c).w, eps := (fFresh c).eps, last := (fFresh c).last } (List.range (u :: l1).length) with
        | error e => rw [f3] at e3; cases e3
        | ok p3 =>
          obtain ⟨v1, k1⟩ := p1
          obtain ⟨v2, k2⟩ := p2
          obtain ⟨v3, k3⟩ := p3
          rw [f1] at e1
          rw [f2] at e2
          rw [f3] at e3
          have g1 := (Prod.mk.inj (Except.ok.inj e1)).2
          have g2 := (Prod.mk.inj (Except.ok.inj e2)).2
          have g3 := (Prod.mk.inj (Except.ok.inj e3)).2
          have hs : LinWork a b ({ x := initX c (fFresh c) u, w := (fFresh c).w, eps := (fFresh c).eps, last := (fFresh c).last } : Work K c.d)
              { x := initX c (fFresh c) v, w := (fFresh c).w, eps := (fFresh c).eps, last := (fFresh c).last }
              { x := initX c (fFresh c) (a * u + b * v), w := (fFresh c).w, eps := (fFresh c).eps, last := (fFresh c).last } := by
            refine ⟨?_, ?_, ?_⟩
            · intro k
              simp only [initX, fFresh]
              split <;> ring
            · simp [fFresh]
            · simp [fFresh]
          have := (fLoop_lin c a b _ _ _ _ _ _ hww hyl hm hw (List.range (u :: l1).length) (fun i hi => List.mem_range.mp hi) _ _ _ _ _ _ _ _ _ hs f1 f2 f3).2
          rw [← g1, ← g2, ← g3]
          intro i h
          exact linList_getD (this.2.2 i) h

/-- C251 (units): measuring the series in other units changes the forecasts by the same factor. -/
theorem C251_units (c : Fcfg K) (hm : 1 ≤ c.m) (hp : c.period ≤ c.m) (hn : 1 ≤ c.nsa) (a : K) (y : List K) (h0 : y ≠ []) :
    ∃ (R R' : List (List K)) (t t' : Fst K c.d), fFit c (fFresh c) y = .ok (t, R) ∧ fFit c (fFresh c) (y.map (a * ·)) = .ok (t', R') ∧
      ∀ i h, (R'.getD i []).getD h 0 = a * (R.getD i []).getD h 0 := by
  obtain ⟨R1, R2, R3, t1, t2, t3, e1, e2, e3, h⟩ := C251_superposition c hm hp hn a 0 y y rfl h0
  have hz : List.zipWith (fun u v => a * u + 0 * v) y y = y.map (a * ·) := by
    rw [List.zipWith_self]
    apply List.map_congr_left
    intro x _
    ring
  rw [hz] at e3
  exact ⟨R1, R3, t1, t3, e1, e3, fun i k => by rw [h i k]; ring⟩

end PyF.Fast
