import Verif.ICNN.InitModel
import Verif.ICNN.Props
import Mathlib.Probability.Distributions.Gaussian.Real
import Mathlib.MeasureTheory.Integral.Gamma
import Mathlib.MeasureTheory.Measure.Lebesgue.Integral

/-! C297, C298: new networks, before the first step of training. -/

namespace PyF.ICNN
open PyF

/-- Which `init_type` is accepted. -/
theorem positiveLecun_ok (nOut : ℕ) (ty : String) (f g : ℕ → ℕ → ℝ) :
    (∃ k, positiveLecun nOut ty f g = .ok k) ↔ ty = "normal" ∨ ty = "uniform" := by
  unfold positiveLecun
  simp only
  by_cases h1 : ty = "normal"
  · simp [h1]
  · by_cases h2 : ty = "uniform"
    · simp [h2]
    · simp [h1, h2]

theorem positiveLecun_nonneg {nOut : ℕ} {ty : String} {f g : ℕ → ℕ → ℝ} {k : ℕ → ℕ → ℝ} (h : positiveLecun nOut ty f g = .ok k) (i j : ℕ) : 0 ≤ k i j := by
  unfold positiveLecun at h
  simp only at h
  split_ifs at h
  · cases h; positivity
  · cases h; positivity

theorem clampD_eq {d : Dense} (h : ∀ i j, 0 ≤ d.kernel i j) : clampD d = d := by
  unfold clampD
  simp only [fun i j => max_eq_right (h i j)]

theorem modify_same {α : Type} (key : Name) (f : α → α) (d : List (Name × α)) (h : ∀ e ∈ d, e.1 = key → f e.2 = e.2) : modify key f d = d := by
  unfold modify
  conv_rhs => rw [← List.map_id d]
  refine List.map_congr_left fun e he => ?_
  simp only [id]
  split_ifs with hk
  · rw [h e he hk]
  · rfl

/-- What a new layer contains. -/
theorem newLayer_spec {E : InitDraws} {l : ℕ} {recId : Bool} {ty : String} {nOut : ℕ} {last : Bool} {ps : LayerPars} (h : newLayer E l recId ty nOut last = .ok ps) :
    (∃ d, ps.lookup sWz = some d) ∧ (∃ d, ps.lookup sWy = some d) ∧ (∀ e ∈ ps, e.1 = sWz → ∀ i j, 0 ≤ e.2.kernel i j) ∧
      (recId = false → ∀ e ∈ ps, e.1 = sWy → ∀ i j, 0 ≤ e.2.kernel i j) := by
  unfold newLayer at h
  simp only at h
  cases hz : positiveLecun nOut ty (E.normal l sWz) (E.unif l sWz) with
  | error e => rw [hz] at h; cases h
  | ok kz =>
    rw [hz] at h
    simp only at h
    cases hy : (if recId then (.ok (E.lecun l sWy) : Except PyErr (ℕ → ℕ → ℝ)) else positiveLecun nOut ty (E.normal l sWy) (E.unif l sWy)) with
    | error e => rw [hy] at h; cases h
    | ok ky =>
      rw [hy] at h
      simp only [Except.ok.injEq] at h
      subst h
      have n1 : sWzu ≠ sWz := by decide
      have n2 : sWyu ≠ sWz := by decide
      have n3 : sWy ≠ sWz := by decide
      have n4 : sWuz ≠ sWz := by decide
      have n5 : sUd ≠ sWz := by decide
      have n6 : sWzu ≠ sWy := by decide
      have n7 : sWyu ≠ sWy := by decide
      have n8 : sWuz ≠ sWy := by decide
      have n9 : sUd ≠ sWy := by decide
      have hmem : ∀ e : Name × Dense, e ∈ ([(sWzu, ⟨E.lecun l sWzu, fun _ => 0⟩), (sWyu, ⟨E.lecun l sWyu, fun _ => 0⟩), (sWz, ⟨kz, fun _ => 0⟩), (sWy, ⟨ky, fun _ => 0⟩), (sWuz, ⟨E.lecun l sWuz, fun _ => 0⟩)] ++
          (if last then [] else [(sUd, ⟨E.lecun l sUd, fun _ => 0⟩)]) : LayerPars) → (e.1 = sWz → e.2.kernel = kz) ∧ (e.1 = sWy → e.2.kernel = ky) := by
        intro e he
        rw [List.mem_append] at he
        rcases he with he | he
        · simp only [List.mem_cons, List.not_mem_nil, or_false] at he
          rcases he with rfl | rfl | rfl | rfl | rfl
          · exact ⟨fun h => absurd h n1, fun h => absurd h n6⟩
          · exact ⟨fun h => absurd h n2, fun h => absurd h n7⟩
          · exact ⟨fun _ => rfl, fun h => absurd h n3.symm⟩
          · exact ⟨fun h => absurd h n3, fun _ => rfl⟩
          · exact ⟨fun h => absurd h n4, fun h => absurd h n8⟩
        · split_ifs at he
          · simp at he
          · simp only [List.mem_cons, List.not_mem_nil, or_false] at he
            subst he
            exact ⟨fun h => absurd h n5, fun h => absurd h n9⟩
      refine ⟨⟨⟨kz, fun _ => 0⟩, ?_⟩, ⟨⟨ky, fun _ => 0⟩, ?_⟩, fun e he h i j => ?_, fun hr e he h i j => ?_⟩
      · rfl
      · rfl
      · rw [(hmem e he).1 h]
        exact positiveLecun_nonneg hz i j
      · rw [(hmem e he).2 h]
        subst hr
        exact positiveLecun_nonneg hy i j

theorem reprojectLayer_new {E : InitDraws} {l : ℕ} {recId : Bool} {ty : String} {nOut : ℕ} {last : Bool} {ps : LayerPars} (h : newLayer E l recId ty nOut last = .ok ps)
    (rs m : Bool) (hm : recId = true → rs = false ∧ m = false) (name : Name) (hn : recId = true → contains sMonotone name = false) : reprojectLayer rs m name ps = .ok ps := by
  obtain ⟨⟨dz, hz⟩, ⟨dy, hy⟩, h3, h4⟩ := newLayer_spec h
  have ez : modify sWz clampD ps = ps := modify_same _ _ _ (fun e he hk => clampD_eq (h3 e he hk))
  unfold reprojectLayer
  cases recId with
  | true =>
    obtain ⟨rfl, rfl⟩ := hm rfl
    rw [hn rfl, hz]
    simp [ez]
  | false =>
    have ey : modify sWy clampD ps = ps := modify_same _ _ _ (fun e he hk => clampD_eq (h4 rfl e he hk))
    rw [ez, ey, hz, hy]
    simp

theorem monotone_notin_layerName (i : ℕ) : contains sMonotone (layerName i) = false := by
  unfold contains
  rw [decide_eq_false_iff_not]
  rintro ⟨s, t, h⟩
  have hmem : 't' ∈ layerName i := by
    have hs : 't' ∈ sMonotone := by decide
    rw [← h]
    exact List.mem_append.2 (Or.inl (List.mem_append.2 (Or.inr hs)))
  unfold layerName at hmem
  rw [List.mem_append] at hmem
  rcases hmem with hm | hm
  · have h0 : 't' ∉ "PICNNLayer_".toList := by decide
    exact h0 hm
  · have := Nat.isDigit_of_mem_toDigits (b := 10) (by norm_num) (by norm_num) hm
    revert this; decide

/-- C297 (projection): the projection of the weights leaves a new network as it is: for the networks with `rec_activation=identity` the plain projection, for the others every projection. -/
theorem C297_projection (E : InitDraws) (recId : Bool) (ty : String) (lat nOut a n : ℕ) (t : Tree) (h : newNet E recId ty lat nOut a n = .ok t) (rs m : Bool)
    (hm : recId = true → rs = false ∧ m = false) : reproject rs m t = .ok t := by
  induction n generalizing a t with
  | zero => unfold newNet at h; cases h; rfl
  | succ n ih =>
    unfold newNet at h
    cases h1 : newLayer E a recId ty (if n = 0 then nOut else lat) (n == 0) with
    | error e => rw [h1] at h; cases h
    | ok ps =>
      rw [h1] at h
      simp only at h
      cases h2 : newNet E recId ty lat nOut (a + 1) n with
      | error e => rw [h2] at h; cases h
      | ok t' =>
        rw [h2] at h
        cases h
        have hc : contains sPicnn (layerName a) = true := by
          unfold contains
          exact decide_eq_true (picnn_in_layerName a)
        have hl := reprojectLayer_new h1 rs (m || contains sMonotone (layerName a)) (fun hr => ⟨(hm hr).1, by rw [(hm hr).2, monotone_notin_layerName]; rfl⟩) (layerName a) (fun _ => monotone_notin_layerName a)
        unfold reproject reprojectNode
        rw [if_pos hc]
        simp only
        rw [hl]
        simp only
        rw [ih (a + 1) t' h2]

/-- C297 (types): a network of at least one layer can be created exactly for the two types `normal` and `uniform`. -/
theorem C297_types (E : InitDraws) (recId : Bool) (ty : String) (lat nOut a n : ℕ) (hn : 0 < n) :
    (∃ t, newNet E recId ty lat nOut a n = .ok t) ↔ ty = "normal" ∨ ty = "uniform" := by
  have hok : ty = "normal" ∨ ty = "uniform" → ∀ n a, ∃ t, newNet E recId ty lat nOut a n = .ok t := by
    intro ht n
    induction n with
    | zero => intro a; exact ⟨[], rfl⟩
    | succ n ih =>
      intro a
      obtain ⟨t, e⟩ := ih (a + 1)
      obtain ⟨kz, ez⟩ := (positiveLecun_ok (if n = 0 then nOut else lat) ty (E.normal a sWz) (E.unif a sWz)).2 ht
      obtain ⟨ky, ey⟩ := (positiveLecun_ok (if n = 0 then nOut else lat) ty (E.normal a sWy) (E.unif a sWy)).2 ht
      unfold newNet newLayer
      simp only
      rw [ez, ey]
      cases recId <;> simp [e]
  constructor
  · rintro ⟨t, ht⟩
    obtain ⟨n, rfl⟩ : ∃ k, n = k + 1 := ⟨n - 1, by omega⟩
    unfold newNet newLayer at ht
    simp only at ht
    cases hz : positiveLecun (if n = 0 then nOut else lat) ty (E.normal a sWz) (E.unif a sWz) with
    | error e => rw [hz] at ht; cases ht
    | ok k => exact (positiveLecun_ok _ _ _ _).1 ⟨k, hz⟩
  · intro h
    exact hok h n a

/-- C297 (convex): a new `PICNN` or `RecStablePICNN` without bounds is convex in the controls before any training. -/
theorem C297_convex (E : InitDraws) (recId : Bool) (ty : String) (lat nOut n : ℕ) (t : Tree) (h : newNet E recId ty lat nOut 0 n = .ok t) (lays : List LayerP) (hr : readNet t 0 n = some lays)
    (c : Cfg) (hc : ∃ aug nOpt nx lat, c = cfgPICNN aug nOpt nx lat none ∨ c = cfgRecStable aug nOpt nx lat none)
    (xd : ℕ) (x y y' : ℕ → ℝ) (s : ℝ) (h0 : 0 ≤ s) (h1 : s ≤ 1) (o o' os : ℕ → ℝ)
    (ho : apply c lays xd x y = .ok o) (ho' : apply c lays xd x y' = .ok o') (hos : apply c lays xd x (seg s y y') = .ok os) (j : ℕ) :
    os j ≤ (1 - s) * o j + s * o' j :=
  C70_convex false false t t (C297_projection E recId ty lat nOut 0 n t h false false (fun _ => ⟨rfl, rfl⟩)) n lays hr c hc xd x y y' s h0 h1 o o' os ho ho' hos j

/-- C297 (monotone): a new network with sigmoid activations is non-decreasing in the controls before any training. -/
theorem C297_monotone (E : InitDraws) (ty : String) (lat nOut n : ℕ) (t : Tree) (h : newNet E false ty lat nOut 0 n = .ok t) (lays : List LayerP) (hr : readNet t 0 n = some lays)
    (nOpt nx : ℕ) (zb : Option (ℝ × ℝ)) (hzb : ∀ lo hi, zb = some (lo, hi) → lo ≤ hi)
    (xd : ℕ) (x y y' : ℕ → ℝ) (hy : ∀ i, y i ≤ y' i) (o o' : ℕ → ℝ)
    (ho : apply (cfgSigmoid false nOpt nx lat zb) lays xd x y = .ok o) (ho' : apply (cfgSigmoid false nOpt nx lat zb) lays xd x y' = .ok o') (j : ℕ) :
    o j ≤ o' j :=
  C71_monotone false t t (C297_projection E false ty lat nOut 0 n t h false true (fun h => by cases h)) n lays hr nOpt nx lat zb hzb xd x y y' hy o o' ho ho' j

/-- C297 (recursively stable): the projection that makes a network recursively stable does change a new one when a weight of the controls is negative: such a network is not stable
before the first step of training. -/
theorem C297_not_stable (E : InitDraws) (ty : String) (hty : ty = "normal" ∨ ty = "uniform") (lat nOut n : ℕ) (i j : ℕ) (hneg : E.lecun 0 sWy i j < 0) :
    ∃ t, newNet E true ty lat nOut 0 (n + 1) = .ok t ∧ reproject true false t ≠ .ok t := by
  obtain ⟨t, ht⟩ := (C297_types E true ty lat nOut 0 (n + 1) (by omega)).2 hty
  refine ⟨t, ht, fun hp => ?_⟩
  unfold newNet at ht
  cases h1 : newLayer E 0 true ty (if n = 0 then nOut else lat) (n == 0) with
  | error e => rw [h1] at ht; cases ht
  | ok ps =>
    rw [h1] at ht
    simp only at ht
    cases h2 : newNet E true ty lat nOut (0 + 1) n with
    | error e => rw [h2] at ht; cases ht
    | ok t' =>
      rw [h2] at ht
      cases ht
      have hwy : ps.lookup sWy = some ⟨E.lecun 0 sWy, fun _ => 0⟩ := by
        unfold newLayer at h1
        simp only [if_true] at h1
        cases hz : positiveLecun (if n = 0 then nOut else lat) ty (E.normal 0 sWz) (E.unif 0 sWz) with
        | error e => rw [hz] at h1; cases h1
        | ok kz =>
          rw [hz] at h1
          simp only [Except.ok.injEq] at h1
          subst h1
          rfl
      have := C73_nonneg true false _ _ hp (.two (layerName 0) sWy) ⟨picnn_in_layerName 0, Or.inr ⟨rfl, Or.inl rfl⟩⟩ ⟨E.lecun 0 sWy, fun _ => 0⟩ (by simp [get, hwy]) i j
      simp only at this
      linarith

end PyF.ICNN
