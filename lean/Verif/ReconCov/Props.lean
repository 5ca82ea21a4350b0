import Verif.ReconCov.Lemmas

namespace PyF.Recon
open PyF Matrix

variable {N T : Type} [DecidableEq N] [DecidableEq T]

/-! ### C228: when the default reconciliation can be fitted -/

omit [DecidableEq N] [DecidableEq T] in
theorem weights_cases (pinv : PInv) (hp : IsPInv pinv) (n : Nat) (y yhat : T → Nat → N → ℝ) (s : Sys N) (t : T) :
    ((∃ i, ∃ r < n, ∃ r' < n, errsOf s (y t) (yhat t) r i ≠ errsOf s (y t) (yhat t) r' i) →
      (shrunkCov n (errsOf s (y t) (yhat t))).PosDef ∧ minTWeights pinv n y yhat s t = (shrunkCov n (errsOf s (y t) (yhat t)))⁻¹ ∧ (minTWeights pinv n y yhat s t).PosDef) ∧
    ((∀ i, ∀ r < n, ∀ r' < n, errsOf s (y t) (yhat t) r i = errsOf s (y t) (yhat t) r' i) → minTWeights pinv n y yhat s t = 0) := by
  constructor
  · intro h
    have hpd := shrunk_posDef n _ h
    have : minTWeights pinv n y yhat s t = (shrunkCov n (errsOf s (y t) (yhat t)))⁻¹ := (hp s.Idx _ (shrunk_transpose n _)).eq_inv (isUnit_iff_ne_zero.2 hpd.det_pos.ne')
    exact ⟨hpd, this, by rw [this]; exact hpd.inv⟩
  · intro h
    unfold minTWeights
    have := hp s.Idx (shrunkCov n (errsOf s (y t) (yhat t))) (shrunk_transpose n _)
    rw [shrunk_zero n _ h] at this ⊢
    exact this.eq_zero

theorem fitP_zero (s : Sys N) (hb : s.bottoms ≠ []) : s.fitP 0 = .error .valueError := by
  unfold Sys.fitP
  rw [if_pos]
  rw [Matrix.mul_zero, Matrix.zero_mul]
  have : Nonempty (Fin s.bottoms.length) := Fin.pos_iff_nonempty.1 (List.length_pos_iff.2 hb)
  exact Matrix.det_zero

theorem fitLoop_ok (s : Sys N) (W : T → Matrix s.Idx s.Idx ℝ) (cols : List N) (hc : s.aggr ++ s.bottoms = cols) (y yhat : T → Nat → N → ℝ) :
    ∀ (ts : List T) (P : Matrix (Fin s.bottoms.length) s.Idx ℝ) (errs : T → Nat → N → ℝ), (∃ m, fitLoop s W cols y yhat ts P errs = .ok m) ↔ ∀ t ∈ ts, ∃ P, s.fitP (W t) = .ok P := by
  intro ts
  induction ts with
  | nil => intro P errs; exact ⟨fun _ => by simp, fun _ => ⟨_, rfl⟩⟩
  | cons t ts ih =>
    intro P errs
    unfold fitLoop
    rw [← hc, check_self]
    cases hP : s.fitP (W t) with
    | error e =>
      constructor
      · rintro ⟨m, hm⟩; cases hm
      · intro h
        obtain ⟨P, hP'⟩ := h t (by simp)
        rw [hP] at hP'; cases hP'
    | ok P' =>
      simp only
      rw [hc, ih]
      constructor
      · intro h t' ht'
        rcases List.mem_cons.1 ht' with rfl | h'
        · exact ⟨P', hP⟩
        · exact h t' h'
      · exact fun h t' ht' => h t' (List.mem_cons_of_mem _ ht')

/-- C228: with a hierarchy that can be unrolled and a frame holding all the aggregates and at least one bottom series, `fit` with the default method succeeds exactly if at every step ahead the error of at least one series differs between two rows. -/
theorem C228_fits_iff (pinv : PInv) (hp : IsPInv pinv) (h : Hier N) (f : Nat) (flat : List (List N)) (hu : unrollDict h f = .ok flat) (names : List N) (hx : ∀ k ∈ keys h, k ∈ names) (hb : ∃ c ∈ names, c ∉ keys h)
    (n : Nat) (y yhat : T → Nat → N → ℝ) (targets : List T) :
    (∃ m, fitMinT pinv h f names n y yhat targets = .ok m) ↔ ∀ t ∈ targets, ∃ c ∈ names, ∃ r < n, ∃ r' < n, y t r c - yhat t r c ≠ y t r' c - yhat t r' c := by
  unfold fitMinT fit
  have hs : system h f (order h names) = .ok ⟨keys h, flat, bottomsOf h (order h names)⟩ := by
    unfold system
    rw [hu]
  rw [hs, hu]
  simp only
  rw [if_pos (show checkX h names = true by unfold checkX; rw [List.all_eq_true]; exact fun k hk => decide_eq_true (hx k hk))]
  have hord : keys h ++ bottomsOf h (order h names) = order h names := bottoms_order h names
  have mem_ord : ∀ c, c ∈ order h names ↔ c ∈ names := by
    intro c
    unfold order
    rw [List.mem_append, List.mem_filter, (firsts_spec names).2]
    constructor
    · rintro (h' | h')
      · exact hx c h'
      · exact h'.1
    · intro hc
      by_cases hk : c ∈ keys h
      · exact Or.inl hk
      · exact Or.inr ⟨hc, decide_eq_true hk⟩
  generalize hS : (⟨keys h, flat, bottomsOf h (order h names)⟩ : Sys N) = s
  have hc : s.aggr ++ s.bottoms = order h names := by rw [← hS]; exact hord
  have hbs : s.bottoms ≠ [] := by
    obtain ⟨c, h1, h2⟩ := hb
    have : c ∈ s.bottoms := by
      rw [← hS]
      exact List.mem_filter.2 ⟨(mem_ord c).2 h1, decide_eq_true h2⟩
    exact List.ne_nil_of_mem this
  have hname : ∀ c, c ∈ names ↔ ∃ i : s.Idx, s.name i = c := by
    intro c
    rw [← mem_ord, ← hc, List.mem_append]
    constructor
    · rintro (h' | h') <;> obtain ⟨k, hk, rfl⟩ := List.getElem_of_mem h'
      · exact ⟨.inl ⟨k, hk⟩, rfl⟩
      · exact ⟨.inr ⟨k, hk⟩, rfl⟩
    · rintro ⟨i | i, rfl⟩
      · exact Or.inl (List.getElem_mem i.2)
      · exact Or.inr (List.getElem_mem i.2)
  rw [fitLoop_ok s _ _ hc]
  refine forall_congr' fun t => forall_congr' fun _ => ?_
  obtain ⟨w1, w2⟩ := weights_cases pinv hp n y yhat s t
  constructor
  · rintro ⟨P, hP⟩
    by_contra hne
    push Not at hne
    rw [w2 fun i r hr r' hr' => hne (s.name i) ((hname _).2 ⟨i, rfl⟩) r hr r' hr', fitP_zero s hbs] at hP
    cases hP
  · rintro ⟨c, hcn, r, hr, r', hr', hne⟩
    obtain ⟨i, rfl⟩ := (hname c).1 hcn
    exact (C61_positive_definite_fits s _ (w1 ⟨i, r, hr, r', hr', hne⟩).2.2).1

/-! ### C229: what the default reconciliation minimises -/

/-- The quantity weighed by the default reconciliation: nine tenths of the variance of the combined training errors plus one tenth of the mean variance of the series times the sum of the squared coefficients. -/
noncomputable def penalised (s : Sys N) (n : Nat) (y yhat : Nat → N → ℝ) (a : s.Idx → ℝ) : ℝ :=
  (9 / 10) * variance n (fun r => ∑ i, a i * (y r (s.name i) - yhat r (s.name i))) + (1 / 10) * meanVar n (fun r (i : s.Idx) => y r (s.name i) - yhat r (s.name i)) * ∑ i, a i ^ 2

omit [DecidableEq T] in
/-- C229 (best combination): the reconciled forecast of every series is a fixed combination `a` of the base forecasts that reproduces the series on coherent forecasts, so that for coherent targets its error is the same combination of the errors; among all combinations that do so it has the least penalised
variance of the training errors, in particular no more than the base forecast. -/
theorem C229_least_penalised_variance (pinv : PInv) (hp : IsPInv pinv) (s : Sys N) (n : Nat) (y yhat : T → Nat → N → ℝ) (t : T) (hv : ∃ i : s.Idx, ∃ r < n, ∃ r' < n, y t r (s.name i) - yhat t r (s.name i) ≠ y t r' (s.name i) - yhat t r' (s.name i))
    (P : Matrix (Fin s.bottoms.length) s.Idx ℝ) (hP : s.fitP (minTWeights pinv n y yhat s t) = .ok P) (i : s.Idx) :
    ∃ a : s.Idx → ℝ, (∀ v, s.values P v i = ∑ j, a j * v (s.name j)) ∧ (∀ b : Fin s.bottoms.length → ℝ, ∑ j, a j * (s.S *ᵥ b) j = (s.S *ᵥ b) i) ∧
      (∀ v w : N → ℝ, (∃ b, ∀ j, v (s.name j) = (s.S *ᵥ b) j) → v (s.name i) - s.values P w i = ∑ j, a j * (v (s.name j) - w (s.name j))) ∧
      (∀ a' : s.Idx → ℝ, (∀ b : Fin s.bottoms.length → ℝ, ∑ j, a' j * (s.S *ᵥ b) j = (s.S *ᵥ b) i) → penalised s n (y t) (yhat t) a ≤ penalised s n (y t) (yhat t) a') ∧
      penalised s n (y t) (yhat t) a ≤ (9 / 10) * variance n (fun r => y t r (s.name i) - yhat t r (s.name i)) + (1 / 10) * meanVar n (fun r (i : s.Idx) => y t r (s.name i) - yhat t r (s.name i)) := by
  obtain ⟨hpd, hW, _⟩ := (weights_cases pinv hp n y yhat s t).1 hv
  obtain ⟨hPS, hd, he⟩ := fitP_left_inv hP
  rw [hW] at hd he
  have hq : ∀ a : s.Idx → ℝ, penalised s n (y t) (yhat t) a = a ⬝ᵥ shrunkCov n (errsOf s (y t) (yhat t)) *ᵥ a := by
    intro a
    rw [quad_shrunk]
    rfl
  have hopt : ∀ a' : s.Idx → ℝ, (∀ b : Fin s.bottoms.length → ℝ, ∑ j, a' j * (s.S *ᵥ b) j = (s.S *ᵥ b) i) →
      penalised s n (y t) (yhat t) (fun j => (s.S * P) i j) ≤ penalised s n (y t) (yhat t) a' := by
    intro a' ha'
    have hrow : a' ᵥ* s.S = s.S i := by
      funext k
      have := ha' (Pi.single k 1)
      rw [mulVec_single_one] at this
      exact this
    have := gauss_markov s.S _ hpd hd (s.S i) a' hrow
    rw [← he] at this
    rw [hq, hq]
    exact this
  have hself : ∀ b : Fin s.bottoms.length → ℝ, ∑ j, (Pi.single i 1 : s.Idx → ℝ) j * (s.S *ᵥ b) j = (s.S *ᵥ b) i := by
    intro b
    rw [Finset.sum_eq_single i]
    · rw [Pi.single_eq_same, one_mul]
    · intro j _ hj
      rw [Pi.single_eq_of_ne hj, zero_mul]
    · simp
  have hcoh : ∀ b : Fin s.bottoms.length → ℝ, ∑ j, (s.S * P) i j * (s.S *ᵥ b) j = (s.S *ᵥ b) i := by
    intro b
    change ((s.S * P) *ᵥ (s.S *ᵥ b)) i = _
    rw [mulVec_mulVec, Matrix.mul_assoc, hPS, Matrix.mul_one]
  refine ⟨fun j => (s.S * P) i j, fun v => rfl, hcoh, ?_, hopt, ?_⟩
  · rintro v w ⟨b, hb⟩
    have h1 := hcoh b
    simp only [← hb] at h1
    simp only [mul_sub]
    rw [Finset.sum_sub_distrib, h1]
    rfl
  · refine (hopt _ hself).trans (le_of_eq ?_)
    unfold penalised
    congr 1
    · congr 2
      funext r
      rw [Finset.sum_eq_single i]
      · rw [Pi.single_eq_same, one_mul]
      · intro j _ hj
        rw [Pi.single_eq_of_ne hj, zero_mul]
      · simp
    · rw [Finset.sum_eq_single i]
      · rw [Pi.single_eq_same]; ring
      · intro j _ hj
        rw [Pi.single_eq_of_ne hj]; ring
      · simp

end PyF.Recon
