import Verif.Normalize.Model
import Mathlib.Algebra.Order.Field.Rat
import Mathlib.Data.List.Forall2
import Mathlib.Tactic.FieldSimp
import Mathlib.Tactic.Ring
import Mathlib.Logic.Function.Iterate
import Mathlib.Order.Monotone.Defs

namespace PyF.Normalize
open PyF.Names

variable {N : Type}

/-! ### Specification -/

/-- How often a column is passed through the expression: once per distinct target name and occurrence in the
metadata. -/
def passes (s : Setting N) (c : Str) : Nat := s.targetNames.dedup.length * s.metaCols.count c

/-- Columns have one value per row. -/
def WF (n : Nat) (y : Frame) : Prop := ∀ p ∈ y, p.2.length = n

/-- `y'` has the columns of `y`, each entry passed `k c` times through the row's function. -/
def Passed (g : N → ℚ → ℚ) (rows : List N) (k : Str → Nat) (y y' : Frame) : Prop :=
  List.Forall₂ (fun p q : Str × List ℚ => q.1 = p.1 ∧ q.2 = List.zipWith (fun r v => (g r)^[k p.1] v) rows p.2) y y'

/-! ### Lemmas -/

theorem zipWith_right_id (rows : List N) (c : List ℚ) (h : c.length = rows.length) :
    List.zipWith (fun _ v => v) rows c = c := by
  induction rows generalizing c with
  | nil => cases c with
    | nil => rfl
    | cons a c => simp at h
  | cons r rows ih => cases c with
    | nil => simp at h
    | cons a c => simp only [List.zipWith_cons_cons]; rw [ih c (by simpa using h)]

theorem zipWith_comp (g h : N → ℚ → ℚ) (rows : List N) (c : List ℚ) :
    List.zipWith g rows (List.zipWith h rows c) = List.zipWith (fun r v => g r (h r v)) rows c := by
  induction rows generalizing c with
  | nil => rfl
  | cons r rows ih => cases c with
    | nil => rfl
    | cons a c => simp [ih]

theorem Passed.refl (g : N → ℚ → ℚ) (rows : List N) (y : Frame) (hy : WF rows.length y) : Passed g rows (fun _ => 0) y y := by
  unfold Passed
  rw [List.forall₂_same]
  intro p hp
  refine ⟨rfl, ?_⟩
  simp only [Function.iterate_zero, id]
  exact (zipWith_right_id rows p.2 (hy p hp)).symm

theorem assign_passed (g : N → ℚ → ℚ) (rows : List N) (c : Str) (k : Str → Nat) (y z z' : Frame)
    (h : Passed g rows k y z) (ha : assign g rows c z = .ok z') :
    Passed g rows (fun d => k d + if d = c then 1 else 0) y z' := by
  unfold assign at ha
  split at ha
  · injection ha with ha
    subst ha
    unfold Passed at h ⊢
    rw [List.forall₂_map_right_iff]
    refine h.imp ?_
    rintro p q ⟨h1, h2⟩
    by_cases hc : q.1 = c
    · rw [if_pos hc]
      refine ⟨h1, ?_⟩
      have hp : p.1 = c := h1 ▸ hc
      simp only [if_pos hp, evalCol, h2, zipWith_comp, Function.iterate_succ_apply']
    · rw [if_neg hc]
      refine ⟨h1, ?_⟩
      have hp : ¬ p.1 = c := h1 ▸ hc
      simp only [if_neg hp, Nat.add_zero]
      exact h2
  · cases ha

theorem assignAll_passed (g : N → ℚ → ℚ) (rows : List N) (cs : List Str) (k : Str → Nat) (y z z' : Frame)
    (h : Passed g rows k y z) (ha : assignAll g rows cs z = .ok z') :
    Passed g rows (fun d => k d + cs.count d) y z' := by
  induction cs generalizing k z with
  | nil => simp only [assignAll, Except.ok.injEq] at ha; subst ha; simpa using h
  | cons c cs ih =>
    unfold assignAll at ha
    cases h1 : assign g rows c z with
    | error e => rw [h1] at ha; cases ha
    | ok z1 =>
      rw [h1] at ha
      have h2 := ih _ z1 (assign_passed g rows c k y z z1 h h1) ha
      refine h2.imp ?_
      rintro p q ⟨e1, e2⟩
      refine ⟨e1, ?_⟩
      rw [e2]
      congr 1
      funext r v
      congr 1
      show (k p.1 + if p.1 = c then 1 else 0) + List.count p.1 cs = k p.1 + List.count p.1 (c :: cs)
      rw [List.count_cons]
      by_cases hpc : p.1 = c
      · simp [hpc]; omega
      · have : ¬ c = p.1 := fun e => hpc e.symm
        simp [hpc, this]

theorem count_flatMap_const (l : List Str) (m : List Str) (c : Str) :
    (l.flatMap (fun _ => m)).count c = l.length * m.count c := by
  induction l with
  | nil => simp
  | cons a l ih => rw [List.flatMap_cons, List.count_append, ih, List.length_cons]; ring

theorem assignAll_ok_iff (g : N → ℚ → ℚ) (rows : List N) (cs : List Str) : ∀ (y : Frame),
    (∃ y', assignAll g rows cs y = .ok y') ↔ ∀ c ∈ cs, ∃ col, (c, col) ∈ y := by
  induction cs with
  | nil => intro y; simp [assignAll]
  | cons c cs ih =>
    intro y
    unfold assignAll assign
    by_cases hin : y.any (fun p => p.1 = c) = true
    · rw [if_pos hin]
      simp only
      rw [ih]
      have hc : ∃ col, (c, col) ∈ y := by
        rw [List.any_eq_true] at hin
        obtain ⟨p, hp, he⟩ := hin
        have he' : p.1 = c := by simpa using he
        exact ⟨p.2, by rw [← he']; exact hp⟩
      have hmap : ∀ d, (∃ col, (d, col) ∈ y.map (fun p => if p.1 = c then (p.1, evalCol g rows p.2) else p)) ↔ ∃ col, (d, col) ∈ y := by
        intro d
        constructor
        · rintro ⟨col, hcol⟩
          rw [List.mem_map] at hcol
          obtain ⟨p, hp, he⟩ := hcol
          have : p.1 = d := by
            split at he
            · exact (Prod.mk.injEq _ _ _ _ ▸ he).1
            · rw [he]
          exact ⟨p.2, by rw [← this]; exact hp⟩
        · rintro ⟨col, hcol⟩
          by_cases hd : d = c
          · exact ⟨evalCol g rows col, List.mem_map.2 ⟨_, hcol, by simp [hd]⟩⟩
          · exact ⟨col, List.mem_map.2 ⟨_, hcol, by simp [hd]⟩⟩
      constructor
      · intro h d hd
        rcases List.mem_cons.1 hd with rfl | hd
        · exact hc
        · exact (hmap d).1 (h d hd)
      · intro h d hd
        exact (hmap d).2 (h d (List.mem_cons_of_mem _ hd))
    · rw [if_neg hin]
      constructor
      · rintro ⟨y', hy'⟩; cases hy'
      · intro h
        exfalso
        obtain ⟨col, hcol⟩ := h c List.mem_cons_self
        exact hin (List.any_eq_true.2 ⟨_, hcol, by simp⟩)

/-! ### C25 -/

/-- C25 (values): normalising keeps the columns and passes each entry, with its row's normalisers, through the
expression exactly (number of distinct target names) × (occurrences of the column in the target metadata) times. -/
theorem C25_normalised_values (s : Setting N) (g : N → ℚ → ℚ) (hg : s.norm = some g) (y y' : Frame)
    (hy : WF s.rows.length y) (h : normalize s none y = .ok y') : Passed g s.rows (passes s) y y' := by
  unfold normalize at h
  rw [hg] at h
  have := assignAll_passed g s.rows _ (fun _ => 0) y y y' (Passed.refl g s.rows y hy) h
  simp only [Nat.zero_add, count_flatMap_const] at this
  exact this

/-- C25 (acceptance): normalisation raises nothing iff every metadata column is in the frame (or there is nothing to
do). -/
theorem C25_accepts_iff (s : Setting N) (g : N → ℚ → ℚ) (hg : s.norm = some g) (hne : s.targetNames ≠ []) (y : Frame) :
    (∃ y', normalize s none y = .ok y') ↔ ∀ c ∈ s.metaCols, ∃ col, (c, col) ∈ y := by
  unfold normalize
  rw [hg]
  unfold inner
  show (∃ y', assignAll g s.rows _ y = .ok y') ↔ _
  rw [assignAll_ok_iff]
  constructor
  · intro h c hc
    obtain ⟨n, hn⟩ := List.exists_mem_of_ne_nil _ (fun e => hne ((List.dedup_eq_nil _).1 e) : s.targetNames.dedup ≠ [])
    exact h c (List.mem_flatMap.2 ⟨n, hn, hc⟩)
  · intro h c hc
    obtain ⟨_, _, hc⟩ := List.mem_flatMap.1 hc
    exact h c hc

theorem iterate_inverse (g d : ℚ → ℚ) (h : ∀ v, d (g v) = v) (k : Nat) (v : ℚ) : d^[k] (g^[k] v) = v := by
  induction k generalizing v with
  | zero => rfl
  | succ k ih => rw [Function.iterate_succ_apply, Function.iterate_succ_apply', h, ih]

theorem any_of_passed {g : N → ℚ → ℚ} {rows : List N} {k : Str → Nat} {y y' : Frame} (h : Passed g rows k y y') (c : Str)
    (hc : ∃ col, (c, col) ∈ y) : ∃ col, (c, col) ∈ y' := by
  induction h with
  | nil => obtain ⟨_, hc⟩ := hc; cases hc
  | @cons p q l m hr _ ih =>
    obtain ⟨col, hcol⟩ := hc
    rcases List.mem_cons.1 hcol with he | hcol
    · exact ⟨q.2, List.mem_cons.2 (Or.inl (by rw [show c = q.1 by rw [hr.1, ← he]]))⟩
    · obtain ⟨d, hd⟩ := ih ⟨col, hcol⟩
      exact ⟨d, List.mem_cons_of_mem _ hd⟩

theorem passed_passed (g d : N → ℚ → ℚ) (rows : List N) (k : Str → Nat) (hinv : ∀ r ∈ rows, ∀ v, d r (g r v) = v)
    (y y' y'' : Frame) (hy : WF rows.length y) (h1 : Passed g rows k y y') (h2 : Passed d rows k y' y'') : y'' = y := by
  unfold Passed at h1 h2
  induction h1 generalizing y'' with
  | nil => cases h2; rfl
  | @cons p q l m hr _ ih =>
    cases h2 with
    | @cons _ w _ t hw ht =>
      have hl := ih t (fun p hp => hy p (List.mem_cons_of_mem _ hp)) ht
      rw [hl]
      congr 1
      refine Prod.ext (hw.1.trans hr.1) ?_
      rw [hw.2, hr.2, hr.1, zipWith_comp]
      have : ∀ (rs : List N) (c : List ℚ), (∀ r ∈ rs, ∀ v, d r (g r v) = v) → c.length = rs.length →
          List.zipWith (fun r v => (d r)^[k p.1] ((g r)^[k p.1] v)) rs c = c := by
        intro rs
        induction rs with
        | nil => intro c _ hc; cases c with
          | nil => rfl
          | cons a c => simp at hc
        | cons r rs ihr => intro c hi hc; cases c with
          | nil => simp at hc
          | cons a c =>
            rw [List.zipWith_cons_cons, iterate_inverse _ _ (hi r List.mem_cons_self),
              ihr c (fun r hr => hi r (List.mem_cons_of_mem _ hr)) (by simpa using hc)]
      exact this rows p.2 hinv (hy p List.mem_cons_self)

theorem passed_wf {g : N → ℚ → ℚ} {rows : List N} {k : Str → Nat} {y y' : Frame} (h : Passed g rows k y y')
    (hy : WF rows.length y) : WF rows.length y' := by
  unfold Passed at h
  induction h with
  | nil => intro q hq; cases hq
  | @cons a b l m hr _ ih =>
    intro q hq
    rcases List.mem_cons.1 hq with rfl | hq
    · rw [hr.2, List.length_zipWith, hy a List.mem_cons_self, Nat.min_self]
    · exact ih (fun p hp => hy p (List.mem_cons_of_mem _ hp)) q hq

/-- C25 (round trip): when the second expression undoes the first for the normalisers of every row, denormalising the
normalised target gives it back, with the same columns in the same order, for any number of target names. -/
theorem C25_round_trip (s : Setting N) (g d : N → ℚ → ℚ) (hg : s.norm = some g) (hd : s.denorm = some d)
    (hinv : ∀ r ∈ s.rows, ∀ v, d r (g r v) = v) (y y' : Frame) (hy : WF s.rows.length y)
    (h : normalize s none y = .ok y') : denormalize s y' = .ok y := by
  have hp := C25_normalised_values s g hg y y' hy h
  have hok : ∃ y'', assignAll d s.rows (s.targetNames.dedup.flatMap (fun _ => s.metaCols)) y' = .ok y'' := by
    rw [assignAll_ok_iff]
    have h' : ∃ z, assignAll g s.rows (s.targetNames.dedup.flatMap (fun _ => s.metaCols)) y = .ok z := by
      refine ⟨y', ?_⟩
      unfold normalize at h
      rw [hg] at h
      exact h
    rw [assignAll_ok_iff] at h'
    intro c hc
    exact any_of_passed hp c (h' c hc)
  obtain ⟨y'', h''⟩ := hok
  have h2 := assignAll_passed d s.rows _ (fun _ => 0) y' y' y'' (Passed.refl d s.rows y' (passed_wf hp hy)) h''
  simp only [Nat.zero_add, count_flatMap_const] at h2
  have he := passed_passed g d s.rows (passes s) hinv y y' y'' hy hp h2
  unfold denormalize normalize
  rw [hd, hg]
  show assignAll d s.rows _ y' = _
  rw [h'', he]

theorem C25_identity_without_expression (s : Setting N) (y : Frame) :
    (s.norm = none → normalize s none y = .ok y ∧ denormalize s y = .ok y) ∧
      (s.denorm = none → denormalize s y = .ok y) := by
  refine ⟨fun h => ?_, fun h => ?_⟩
  · unfold denormalize normalize
    rw [h]
    refine ⟨rfl, ?_⟩
    cases s.denorm <;> rfl
  · unfold denormalize; rw [h]

theorem iterate_le {f : ℚ → ℚ} (hf : Monotone f) (k : Nat) {a b : ℚ} (h : a ≤ b) : f^[k] a ≤ f^[k] b := by
  induction k generalizing a b with
  | zero => exact h
  | succ k ih => exact ih (hf h)

/-- Entrywise order of two frames with the same columns. -/
def LE (y z : Frame) : Prop := List.Forall₂ (fun p q : Str × List ℚ => p.1 = q.1 ∧ List.Forall₂ (· ≤ ·) p.2 q.2) y z

theorem passed_le (d : N → ℚ → ℚ) (rows : List N) (k : Str → Nat) (hm : ∀ r, Monotone (d r)) {y y' z z' : Frame}
    (h1 : Passed d rows k y y') (h2 : Passed d rows k z z') (h : LE y z) : LE y' z' := by
  unfold LE Passed at *
  induction h generalizing y' z' with
  | nil => cases h1; cases h2; exact .nil
  | @cons a b l m hr _ ih =>
    cases h1 with
    | cons ha hl =>
      cases h2 with
      | cons hb hl' =>
        refine .cons ⟨by rw [ha.1, hb.1, hr.1], ?_⟩ (ih hl hl')
        rw [ha.2, hb.2, hr.1]
        have : ∀ (rs : List N) (u v : List ℚ), List.Forall₂ (· ≤ ·) u v → List.Forall₂ (· ≤ ·)
            (List.zipWith (fun r v => (d r)^[k b.1] v) rs u) (List.zipWith (fun r v => (d r)^[k b.1] v) rs v) := by
          intro rs
          induction rs with
          | nil => intro u v _; exact .nil
          | cons r rs ihr => intro u v huv; cases huv with
            | nil => exact .nil
            | cons hab huv => exact .cons (iterate_le (hm r) _ hab) (ihr _ _ huv)
        exact this rows _ _ hr.2

/-- C25 (quantile frames): a quantile frame is denormalised level by level with its levels kept in order, and when the
expression is increasing in the value no two quantile levels that were ordered cross. -/
theorem C25_quantile_levels (s : Setting N) (g d : N → ℚ → ℚ) (hg : s.norm = some g) (hd : s.denorm = some d)
    (hm : ∀ r, Monotone (d r)) (ys zs : List (ℚ × Frame)) (hy : ∀ p ∈ ys, WF s.rows.length p.2)
    (h : mapLevels (denormalize s) ys = .ok zs) (hord : ys.Pairwise (fun p q => LE p.2 q.2)) :
    zs.map (·.1) = ys.map (·.1) ∧ List.Forall₂ (fun p q => Passed d s.rows (passes s) p.2 q.2) ys zs ∧
      zs.Pairwise (fun p q => LE p.2 q.2) := by
  have hden : ∀ y y', WF s.rows.length y → denormalize s y = .ok y' → Passed d s.rows (passes s) y y' := by
    intro y y' hwf h
    unfold denormalize normalize at h
    rw [hd, hg] at h
    have := assignAll_passed d s.rows _ (fun _ => 0) y y y' (Passed.refl d s.rows y hwf) h
    simp only [Nat.zero_add, count_flatMap_const] at this
    exact this
  induction ys generalizing zs with
  | nil => simp only [mapLevels, Except.ok.injEq] at h; subst h; simp
  | cons a ys ih =>
    obtain ⟨q, y⟩ := a
    unfold mapLevels at h
    cases h1 : denormalize s y with
    | error e => rw [h1] at h; cases h
    | ok y1 =>
      rw [h1] at h
      cases h2 : mapLevels (denormalize s) ys with
      | error e => rw [h2] at h; cases h
      | ok zs1 =>
        rw [h2] at h
        injection h with h
        subst h
        obtain ⟨i1, i2, i3⟩ := ih zs1 (fun p hp => hy p (List.mem_cons_of_mem _ hp)) h2 (List.pairwise_cons.1 hord).2
        have hp1 := hden y y1 (hy _ List.mem_cons_self) h1
        refine ⟨by simp [i1], .cons hp1 i2, List.pairwise_cons.2 ⟨?_, i3⟩⟩
        intro z hz
        have : ∀ (us vs : List (ℚ × Frame)), List.Forall₂ (fun p q => Passed d s.rows (passes s) p.2 q.2) us vs →
            (∀ u ∈ us, LE y u.2) → ∀ v ∈ vs, LE y1 v.2 := by
          intro us vs huv
          induction huv with
          | nil => intro _ v hv; cases hv
          | @cons a b l m hr _ ihh =>
            intro hu v hv
            rcases List.mem_cons.1 hv with rfl | hv
            · exact passed_le d s.rows (passes s) hm hp1 hr (hu a List.mem_cons_self)
            · exact ihh (fun u hu' => hu u (List.mem_cons_of_mem _ hu')) v hv
        exact this ys zs1 i2 (fun u hu => (List.pairwise_cons.1 hord).1 u hu) z hz

/-- C25 (defect witness): with two target names sharing the expression `df[t] / norm`, a column is divided twice. -/
theorem C25_two_targets_normalise_twice :
    ∃ (s : Setting ℚ) (y y' : Frame), s.norm = some (fun n v => v / n) ∧ normalize s none y = .ok y' ∧
      y = [("p_1".toList, [8])] ∧ y' = [("p_1".toList, [2])] ∧ s.rows = [2] :=
  ⟨⟨some (fun n v => v / n), none, ["p".toList, "q".toList], ["p_1".toList], [2]⟩, [("p_1".toList, [8])],
    [("p_1".toList, [2])], rfl, by
      refine congrArg Except.ok ?_
      decide +kernel, rfl, rfl, rfl⟩

/-! ### Non-vacuity -/

/-- One target, mean/deviation scaling on two rows. -/
def exSetting : Setting (ℚ × ℚ) :=
  { norm := some (fun n v => (v - n.1) / n.2), denorm := some (fun n v => v * n.2 + n.1),
    targetNames := ["p".toList], metaCols := ["p_1".toList, "p_2".toList], rows := [(1, 2), (3, 4)] }

example : ∃ y', normalize exSetting none [("p_1".toList, [5, 7]), ("p_2".toList, [1, 3])] = .ok y' ∧
    y' = [("p_1".toList, [2, 1]), ("p_2".toList, [0, 0])] ∧
    denormalize exSetting y' = .ok [("p_1".toList, [5, 7]), ("p_2".toList, [1, 3])] := by
  have h1 : normalize exSetting none [("p_1".toList, [5, 7]), ("p_2".toList, [1, 3])]
      = .ok [("p_1".toList, [2, 1]), ("p_2".toList, [0, 0])] := congrArg Except.ok (by decide +kernel)
  refine ⟨_, h1, rfl, ?_⟩
  refine C25_round_trip exSetting _ _ rfl rfl ?_ _ _ ?_ h1
  · intro r hr v
    simp only [exSetting, List.mem_cons, List.not_mem_nil, or_false] at hr
    rcases hr with rfl | rfl
    · show ((v - 1) / 2) * 2 + 1 = v
      ring
    · show ((v - 3) / 4) * 4 + 3 = v
      ring
  · intro p hp
    simp only [List.mem_cons, List.not_mem_nil, or_false] at hp
    rcases hp with rfl | rfl <;> rfl

end PyF.Normalize
