import Verif.ReconCov.Props

/-! C291: the default reconciliation in other units, with biased base forecasts, and on sums of forecasts. -/

namespace PyF.Recon
open PyF Matrix

variable {N T : Type} [DecidableEq N] [DecidableEq T]

theorem empCov_affine {ι : Type} (n : Nat) (e : Nat → ι → ℝ) (a : ℝ) (b : ι → ℝ) : empCov n (fun r i => a * e r i + b i) = a ^ 2 • empCov n e := by
  have hm : ∀ i, ∀ r < n, a * e r i + b i - colMean n (fun r i => a * e r i + b i) i = a * (e r i - colMean n e i) := by
    intro i r hr
    have hn : (n : ℝ) ≠ 0 := by
      have : 0 < n := by omega
      exact_mod_cast this.ne'
    unfold colMean
    rw [Finset.sum_add_distrib, ← Finset.mul_sum, Finset.sum_const, Finset.card_range, nsmul_eq_mul]
    field_simp
    ring
  funext i j
  show _ = a ^ 2 * empCov n e i j
  unfold empCov
  rw [← mul_div_assoc, Finset.mul_sum]
  congr 1
  refine Finset.sum_congr rfl (fun r hr => ?_)
  rw [Finset.mem_range] at hr
  rw [hm i r hr, hm j r hr]
  ring

theorem shrunkCov_affine {ι : Type} [Fintype ι] [DecidableEq ι] (n : Nat) (e : Nat → ι → ℝ) (a : ℝ) (b : ι → ℝ) :
    shrunkCov n (fun r i => a * e r i + b i) = a ^ 2 • shrunkCov n e := by
  unfold shrunkCov
  rw [empCov_affine, trace_smul, smul_add, smul_smul, smul_smul, smul_smul, smul_eq_mul]
  congr 2
  · ring
  · ring

omit [DecidableEq N] [DecidableEq T] in
theorem minTWeights_affine (pinv : PInv) (hp : IsPInv pinv) (n : Nat) (y yhat y' yhat' : T → Nat → N → ℝ) (a : ℝ) (ha : a ≠ 0) (b : T → N → ℝ)
    (he : ∀ t r c, y' t r c - yhat' t r c = a * (y t r c - yhat t r c) + b t c) (s : Sys N) (t : T) :
    ∃ k : ℝ, k ≠ 0 ∧ minTWeights pinv n y' yhat' s t = k • minTWeights pinv n y yhat s t := by
  have e1 : errsOf s (y' t) (yhat' t) = fun r i => a * errsOf s (y t) (yhat t) r i + b t (s.name i) := by
    funext r i
    exact he t r _
  by_cases hv : ∃ i, ∃ r < n, ∃ r' < n, errsOf s (y t) (yhat t) r i ≠ errsOf s (y t) (yhat t) r' i
  · have hv' : ∃ i, ∃ r < n, ∃ r' < n, errsOf s (y' t) (yhat' t) r i ≠ errsOf s (y' t) (yhat' t) r' i := by
      obtain ⟨i, r, hr, r', hr', h⟩ := hv
      refine ⟨i, r, hr, r', hr', ?_⟩
      rw [e1]
      intro h2
      exact h (mul_left_cancel₀ ha (add_right_cancel h2))
    obtain ⟨hpd, h1, _⟩ := (weights_cases pinv hp n y yhat s t).1 hv
    obtain ⟨_, h2, _⟩ := (weights_cases pinv hp n y' yhat' s t).1 hv'
    refine ⟨(a ^ 2)⁻¹, by positivity, ?_⟩
    rw [h1, h2, e1, shrunkCov_affine]
    have hu : IsUnit (shrunkCov n (errsOf s (y t) (yhat t))).det := isUnit_iff_ne_zero.2 hpd.det_pos.ne'
    refine Matrix.inv_eq_left_inv ?_
    rw [Matrix.smul_mul, Matrix.mul_smul, smul_smul, Matrix.nonsing_inv_mul _ hu, inv_mul_cancel₀ (by positivity), one_smul]
  · have hv' : ∀ i, ∀ r < n, ∀ r' < n, errsOf s (y t) (yhat t) r i = errsOf s (y t) (yhat t) r' i := by
      intro i r hr r' hr'
      by_contra h
      exact hv ⟨i, r, hr, r', hr', h⟩
    refine ⟨1, one_ne_zero, ?_⟩
    rw [(weights_cases pinv hp n y yhat s t).2 hv', (weights_cases pinv hp n y' yhat' s t).2, one_smul]
    intro i r hr r' hr'
    rw [e1]
    show a * _ + _ = a * _ + _
    rw [hv' i r hr r' hr']

theorem fitP_smul (s : Sys N) (W : Matrix s.Idx s.Idx ℝ) (k : ℝ) (hk : k ≠ 0) : s.fitP (k • W) = s.fitP W := by
  unfold Sys.fitP
  have e : s.Sᵀ * (k • W) * s.S = k • (s.Sᵀ * W * s.S) := by rw [Matrix.mul_smul, Matrix.smul_mul]
  have hd : (k • (s.Sᵀ * W * s.S)).det = 0 ↔ (s.Sᵀ * W * s.S).det = 0 := by
    rw [Matrix.det_smul]
    simp [hk]
  rw [e]
  by_cases h : (s.Sᵀ * W * s.S).det = 0
  · rw [if_pos h, if_pos (hd.2 h)]
  · rw [if_neg h, if_neg (fun h2 => h (hd.1 h2))]
    congr 1
    have hu : IsUnit (s.Sᵀ * W * s.S).det := isUnit_iff_ne_zero.2 h
    have : (k • (s.Sᵀ * W * s.S))⁻¹ = k⁻¹ • (s.Sᵀ * W * s.S)⁻¹ := by
      refine Matrix.inv_eq_left_inv ?_
      rw [Matrix.smul_mul, Matrix.mul_smul, smul_smul, Matrix.nonsing_inv_mul _ hu, inv_mul_cancel₀ hk, one_smul]
    rw [this, Matrix.mul_smul, Matrix.smul_mul, Matrix.mul_smul, smul_smul, inv_mul_cancel₀ hk, one_smul]

theorem values_comb (s : Sys N) (P : Matrix (Fin s.bottoms.length) s.Idx ℝ) (u v : ℝ) (p q : N → ℝ) (i : s.Idx) :
    s.values P (fun c => u * p c + v * q c) i = u * s.values P p i + v * s.values P q i := by
  unfold Sys.values
  have : (fun i => u * p (s.name i) + v * q (s.name i)) = u • (fun i => p (s.name i)) + v • (fun i => q (s.name i)) := rfl
  rw [this, Matrix.mulVec_add, Matrix.mulVec_smul, Matrix.mulVec_smul]
  rfl

theorem valueList_comb (s : Sys N) (P : Matrix (Fin s.bottoms.length) s.Idx ℝ) (u v : ℝ) (p q : N → ℝ) :
    s.valueList P (fun c => u * p c + v * q c) = List.zipWith (fun x y => u * x + v * y) (s.valueList P p) (s.valueList P q) := by
  unfold Sys.valueList
  simp only [values_comb]
  rw [List.zipWith_append (by simp)]
  simp [List.ofFn_eq_map, List.zipWith_map]

theorem valueList_scale (s : Sys N) (P : Matrix (Fin s.bottoms.length) s.Idx ℝ) (u : ℝ) (p : N → ℝ) :
    s.valueList P (fun c => u * p c) = (s.valueList P p).map (fun x => u * x) := by
  have := valueList_comb s P u 0 p p
  simp only [zero_mul, add_zero] at this
  rw [this, List.zipWith_self]

/-- A fitted object whose training errors are multiplied by `a`. -/
def Fitted.scale (a : ℝ) (m : Fitted N T) : Fitted N T := ⟨m.s, m.P, fun t r c => a * m.errs t r c⟩

theorem lookup_map (l : List (N × ℝ)) (a : ℝ) (c : N) : ((l.map (fun p => (p.1, a * p.2))).lookup c).getD 0 = a * (l.lookup c).getD 0 := by
  induction l with
  | nil => simp
  | cons p l ih =>
    rw [List.map_cons, List.lookup_cons, List.lookup_cons]
    split
    · rfl
    · exact ih

omit [DecidableEq N] in
theorem zip_scale (cols : List N) (l : List ℝ) (a : ℝ) : cols.zip (l.map (fun x => a * x)) = (cols.zip l).map (fun p => (p.1, a * p.2)) := by
  rw [List.zip_map_right]
  rfl

omit [DecidableEq N] in
theorem zip_labels (cols : List N) (A B : List ℝ) (h : A.length = B.length) : (cols.zip A).map (·.1) = (cols.zip B).map (·.1) := by
  induction cols generalizing A B with
  | nil => rfl
  | cons c cs ih =>
    cases A with
    | nil =>
      cases B with
      | nil => rfl
      | cons b B => simp at h
    | cons x A =>
      cases B with
      | nil => simp at h
      | cons b B =>
        simp only [List.zip_cons_cons, List.map_cons]
        rw [ih A B (by simpa using h)]

theorem stepErrs_scale (s : Sys N) (P : Matrix (Fin s.bottoms.length) s.Idx ℝ) (cols : List N) (y yhat : Nat → N → ℝ) (a : ℝ) :
    stepErrs s P cols (fun r c => a * y r c) (fun r c => a * yhat r c) = fun r c => a * stepErrs s P cols y yhat r c := by
  funext r c
  unfold stepErrs
  rw [valueList_scale, zip_scale, lookup_map]
  ring

theorem fitLoop_scale (s : Sys N) (W W' : T → Matrix s.Idx s.Idx ℝ) (hW : ∀ t, s.fitP (W' t) = s.fitP (W t)) (cols : List N) (y yhat : T → Nat → N → ℝ) (a : ℝ) (ts : List T)
    (P : Matrix (Fin s.bottoms.length) s.Idx ℝ) (errs : T → Nat → N → ℝ) :
    fitLoop s W' cols (fun t r c => a * y t r c) (fun t r c => a * yhat t r c) ts P (fun t r c => a * errs t r c) = (fitLoop s W cols y yhat ts P errs).map (Fitted.scale a) := by
  induction ts generalizing P errs with
  | nil => rfl
  | cons t ts ih =>
    unfold fitLoop
    rw [hW]
    cases s.fitP (W t) with
    | error e => rfl
    | ok P' =>
      simp only
      cases s.check cols with
      | error e => rfl
      | ok _ =>
        simp only
        rw [← ih]
        congr 1
        funext t' r c
        by_cases h : t' = t
        · simp only [if_pos h]
          rw [stepErrs_scale]
        · simp only [if_neg h]

theorem fitLoop_same (s : Sys N) (W W' : T → Matrix s.Idx s.Idx ℝ) (hW : ∀ t, s.fitP (W' t) = s.fitP (W t)) (cols : List N) (y yhat y' yhat' : T → Nat → N → ℝ) (ts : List T)
    (P : Matrix (Fin s.bottoms.length) s.Idx ℝ) (errs errs' : T → Nat → N → ℝ) :
    (∀ e, fitLoop s W cols y yhat ts P errs = .error e → fitLoop s W' cols y' yhat' ts P errs' = .error e) ∧
    ∀ m, fitLoop s W cols y yhat ts P errs = .ok m → ∃ er, fitLoop s W' cols y' yhat' ts P errs' = .ok ⟨m.s, m.P, er⟩ := by
  induction ts generalizing P errs errs' with
  | nil =>
    refine ⟨fun e he => (by cases he), fun m hm => ?_⟩
    cases hm
    exact ⟨_, rfl⟩
  | cons t ts ih =>
    unfold fitLoop
    rw [hW]
    cases s.fitP (W t) with
    | error e => exact ⟨fun e he => he, fun m hm => (by cases hm)⟩
    | ok P' =>
      simp only
      cases s.check cols with
      | error e => exact ⟨fun e he => he, fun m hm => (by cases hm)⟩
      | ok _ => exact ih _ _ _

/-- C291 (units, fit): if targets and base forecasts of all series are multiplied by the same factor, the default reconciliation is fitted with the same matrix, or raises
the same exception, and its training errors are multiplied by the factor. -/
theorem C291_units_fit (pinv : PInv) (hp : IsPInv pinv) (h : Hier N) (f : Nat) (names : List N) (n : Nat) (y yhat : T → Nat → N → ℝ) (targets : List T) (a : ℝ) (ha : a ≠ 0) :
    fitMinT pinv h f names n (fun t r c => a * y t r c) (fun t r c => a * yhat t r c) targets = (fitMinT pinv h f names n y yhat targets).map (Fitted.scale a) := by
  unfold fitMinT fit
  cases unrollDict h f with
  | error e => rfl
  | ok _ =>
    simp only
    split
    · cases system h f (order h names) with
      | error e => rfl
      | ok s =>
        simp only
        have hW : ∀ t, s.fitP (minTWeights pinv n (fun t r c => a * y t r c) (fun t r c => a * yhat t r c) s t) = s.fitP (minTWeights pinv n y yhat s t) := by
          intro t
          obtain ⟨k, hk, e⟩ := minTWeights_affine pinv hp n y yhat (fun t r c => a * y t r c) (fun t r c => a * yhat t r c) a ha (fun _ _ => 0) (fun t r c => by ring) s t
          rw [e, fitP_smul s _ k hk]
        rw [← fitLoop_scale s _ _ hW]
        congr 1
        funext t r c
        rw [mul_zero]
    · rfl

/-- C291 (linearity): reconciling is linear: a combination of two rows of base forecasts is reconciled to the combination of the reconciled rows, under the same labels, or all are
refused alike. -/
theorem C291_linear (h : Hier N) (m : Fitted N T) (names : List N) (u v : ℝ) (p q : N → ℝ) :
    (∀ e, predict h m names p = .error e → predict h m names (fun c => u * p c + v * q c) = .error e) ∧
    ∀ lp, predict h m names p = .ok lp → ∃ lq lr, predict h m names q = .ok lq ∧ predict h m names (fun c => u * p c + v * q c) = .ok lr ∧
      lr = List.zipWith (fun x y => (x.1, u * x.2 + v * y.2)) lp lq ∧ lq.map (·.1) = lp.map (·.1) := by
  unfold predict Sys.reconcile
  split
  · cases m.s.check (order h names) with
    | error e => exact ⟨fun e he => he, fun m hm => (by cases hm)⟩
    | ok _ =>
      refine ⟨fun e he => (by cases he), fun lp hl => ?_⟩
      cases hl
      refine ⟨_, _, rfl, rfl, ?_, ?_⟩
      · rw [valueList_comb]
        have hl : (m.s.valueList m.P p).length = (m.s.valueList m.P q).length := by rw [valueList_length, valueList_length]
        generalize m.s.valueList m.P p = A at hl
        generalize m.s.valueList m.P q = B at hl
        generalize order h names = cs
        induction cs generalizing A B with
        | nil => rfl
        | cons c cs ih =>
          cases A with
          | nil =>
            cases B with
            | nil => rfl
            | cons b B => simp at hl
          | cons x A =>
            cases B with
            | nil => simp at hl
            | cons b B =>
              simp only [List.zipWith_cons_cons, List.zip_cons_cons]
              rw [ih A B (by simpa using hl)]
      · have hl : (m.s.valueList m.P p).length = (m.s.valueList m.P q).length := by rw [valueList_length, valueList_length]
        exact zip_labels _ _ _ hl.symm
  · exact ⟨fun e he => he, fun m hm => (by cases hm)⟩

omit [DecidableEq T] in
/-- C291 (units, forecasts): the object fitted in new units reconciles base forecasts in the new units to the old reconciled forecasts in the new units. -/
theorem C291_units_predict (h : Hier N) (m : Fitted N T) (names : List N) (a : ℝ) (row : N → ℝ) :
    predict h (m.scale a) names (fun c => a * row c) = (predict h m names row).map (List.map (fun p => (p.1, a * p.2))) := by
  have e : (m.scale a).s = m.s := rfl
  unfold predict Sys.reconcile
  split
  · show (match m.s.check (order h names) with
      | .error e => Except.error e
      | .ok _ => .ok ((order h names).zip (m.s.valueList m.P (fun c => a * row c)))) = _
    cases m.s.check (order h names) with
    | error e => rfl
    | ok _ =>
      simp only [Except.map]
      rw [valueList_scale, zip_scale]
  · rfl

omit [DecidableEq T] in
/-- C291 (units, scenarios): and so are its scenarios. -/
theorem C291_units_scenarios (h : Hier N) (m : Fitted N T) (vanilla : Bool) (names : List N) (trH : List Nat) (n : Nat) (rows : Nat → N → ℝ) (draw : Nat → Nat → Nat → Nat) (t : T) (a : ℝ) :
    predictScenarios h (m.scale a) vanilla names trH n (fun i c => a * rows i c) draw t =
      (predictScenarios h m vanilla names trH n rows draw t).map (List.map (fun p => (p.1, fun sc c => a * p.2 sc c))) := by
  have key : ∀ (e : Nat → N → ℝ) (base : Nat → N → ℝ), scenarios trH (fun r c => a * e r c) n (fun i c => a * base i c) draw =
      (scenarios trH e n base draw).map (List.map (fun p => (p.1, fun sc c => a * p.2 sc c))) := by
    intro e base
    unfold scenarios
    split
    · simp only [Except.map, List.map_flatMap, List.map_map, Function.comp_def, mul_add]
    · rfl
  unfold predictScenarios
  split
  · exact key (m.errs t) rows
  · show (match m.s.check (order h names) with
      | .error e => Except.error e
      | .ok _ => scenarios trH (fun r c => a * m.errs t r c) n (fun i nm => (((order h names).zip (m.s.valueList m.P (fun c => a * rows i c))).lookup nm).getD 0) draw) = _
    cases m.s.check (order h names) with
    | error e => rfl
    | ok _ =>
      simp only
      rw [← key]
      congr 1
      funext i c
      rw [valueList_scale, zip_scale, lookup_map]

/-- C291 (bias): a bias of the base forecasters in the training rows, constant for every series and step, has no influence on the reconciliation of later forecasts; it is not
corrected either (see linearity). -/
theorem C291_bias (pinv : PInv) (hp : IsPInv pinv) (h : Hier N) (f : Nat) (names : List N) (n : Nat) (y yhat : T → Nat → N → ℝ) (targets : List T) (b : T → N → ℝ) :
    (∀ e, fitMinT pinv h f names n y yhat targets = .error e → fitMinT pinv h f names n y (fun t r c => yhat t r c + b t c) targets = .error e) ∧
    ∀ m, fitMinT pinv h f names n y yhat targets = .ok m → ∃ m', fitMinT pinv h f names n y (fun t r c => yhat t r c + b t c) targets = .ok m' ∧
      ∀ names' row, predict h m' names' row = predict h m names' row := by
  unfold fitMinT fit
  cases unrollDict h f with
  | error e => exact ⟨fun e he => he, fun m hm => (by cases hm)⟩
  | ok _ =>
    simp only
    split
    · cases system h f (order h names) with
      | error e => exact ⟨fun e he => he, fun m hm => (by cases hm)⟩
      | ok s =>
        simp only
        have hW : ∀ t, s.fitP (minTWeights pinv n y (fun t r c => yhat t r c + b t c) s t) = s.fitP (minTWeights pinv n y yhat s t) := by
          intro t
          obtain ⟨k, hk, e⟩ := minTWeights_affine pinv hp n y yhat y (fun t r c => yhat t r c + b t c) 1 one_ne_zero (fun t c => -b t c) (fun t r c => by ring) s t
          rw [e, fitP_smul s _ k hk]
        obtain ⟨h1, h2⟩ := fitLoop_same s _ _ hW (order h names) y yhat y (fun t r c => yhat t r c + b t c) targets 0 (fun _ _ _ => 0) (fun _ _ _ => 0)
        refine ⟨h1, fun m hm => ?_⟩
        obtain ⟨er, e⟩ := h2 m hm
        exact ⟨_, e, fun _ _ => rfl⟩
    · exact ⟨fun e he => he, fun m hm => (by cases hm)⟩

end PyF.Recon
