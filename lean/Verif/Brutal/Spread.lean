import Verif.Brutal.Descent

/-!
C337: NaN residuals in `BrutalRegressor`.
-/

namespace PyF.Brutal

open PyF PyF.Tune PyF.Boost

theorem mapM_id_none {l : List (Option ℚ)} (h : none ∈ l) : l.mapM id = none := by
  induction l with
  | nil => cases h
  | cons o l ih =>
    rw [List.mapM_cons]
    cases o with
    | none => rfl
    | some v =>
      rw [ih ((List.mem_cons.1 h).resolve_left (by simp))]
      rfl

theorem omean_none {l : List (Option ℚ)} (h : none ∈ l) : omean l = none := by
  unfold omean
  rw [mapM_id_none h]
  rfl

/-- A residual that is NaN stays NaN whatever the stage. -/
theorem residual_none (lr : ℚ) (p : Row → Option ℚ) (err : List (Option ℚ)) : ∀ (rows : List Row) (i : ℕ), err.getD i none = none → (residual lr rows err p).getD i none = none := by
  unfold residual
  induction err with
  | nil => intro rows i _; simp
  | cons e err ih =>
    intro rows i h
    cases rows with
    | nil => simp
    | cons x rows =>
      cases i with
      | zero =>
        rw [List.getD_cons_zero] at h
        rw [List.zipWith_cons_cons, List.getD_cons_zero, h]
        rfl
      | succ i =>
        rw [List.getD_cons_succ] at h
        rw [List.zipWith_cons_cons, List.getD_cons_succ]
        exact ih rows i h

/-- A drawn row with a NaN residual: the scores of all features are NaN and the first feature is taken, whatever the data; its stage is NaN in the whole bin of
that row. -/
theorem C337_drawn (cuts : List ℚ → List ℚ) (nf : ℕ) (hn : 0 < nf) (rows : List Row) (err : List (Option ℚ)) (idx : List ℕ) (i : ℕ) (hi : i ∈ idx) (he : err.getD i none = none) :
    bestFeature cuts nf rows err idx = .ok 0 ∧
    ∀ x : Row, binOf (cuts (idx.map (fun j => (rows.getD j (fun _ => 0)) 0))) (x 0) = binOf (cuts (idx.map (fun j => (rows.getD j (fun _ => 0)) 0))) ((rows.getD i (fun _ => 0)) 0) →
      stage cuts rows err idx 0 x = none := by
  have hne : idx ≠ [] := fun h => by rw [h] at hi; cases hi
  constructor
  · have hs : (List.range nf).map (fun f => score (cuts ((bootOf rows err idx f).map Prod.fst)) (bootOf rows err idx f)) = List.replicate nf none := by
      rw [List.eq_replicate_iff]
      refine ⟨by rw [List.length_map, List.length_range], ?_⟩
      intro o ho
      obtain ⟨f, _, rfl⟩ := List.mem_map.1 ho
      apply omean_none
      refine List.mem_map.2 ⟨((rows.getD i (fun _ => 0)) f, none), ?_, rfl⟩
      exact List.mem_map.2 ⟨i, hi, by rw [he]⟩
    obtain ⟨m, rfl⟩ : ∃ m, nf = m + 1 := ⟨nf - 1, by omega⟩
    unfold bestFeature argmin
    rw [if_neg (by omega), if_neg hne, hs, if_neg (by simp), if_pos (by simp), List.replicate_succ, List.idxOf_cons_self]
  · intro x hx
    have hfst : (bootOf rows err idx 0).map Prod.fst = idx.map (fun j => (rows.getD j (fun _ => 0)) 0) := by
      unfold bootOf
      rw [List.map_map]
      rfl
    unfold stage response
    rw [hfst]
    apply omean_none
    refine List.mem_map.2 ⟨((rows.getD i (fun _ => 0)) 0, none), List.mem_filter.2 ⟨?_, ?_⟩, rfl⟩
    · exact List.mem_map.2 ⟨i, hi, by rw [he]⟩
    · rw [hx]
      exact beq_self_eq_true _

theorem total_none_of_mem (lr : ℚ) (x : Row) (ps : List (Row → Option ℚ)) (h : ∃ p ∈ ps, p x = none) : total lr x ps = none := by
  induction ps with
  | nil => obtain ⟨p, hp, _⟩ := h; cases hp
  | cons q ps ih =>
    rw [total]
    cases hq : q x with
    | none => rfl
    | some v =>
      obtain ⟨p, hp, hpx⟩ := h
      rcases List.mem_cons.1 hp with h1 | h1
      · rw [h1, hq] at hpx; cases hpx
      · rw [ih ⟨p, h1, hpx⟩]; rfl

theorem spread_aux (lr : ℚ) (cuts : List ℚ → List ℚ) (nf : ℕ) (hn : 0 < nf) (rows : List Row) (i : ℕ) (hi : i < rows.length) (idxs : List (List ℕ)) :
    ∀ (err : List (Option ℚ)) (ps : List (Row → Option ℚ)), fit lr cuts nf rows idxs err = .ok ps → ∀ (k' : ℕ) (idx : List ℕ), idxs[k']? = some idx → i ∈ idx →
      (err.getD i none = none ∨ ∃ (k : ℕ) (p : Row → Option ℚ), k < k' ∧ ps[k]? = some p ∧ p (rows.getD i (fun _ => 0)) = none) →
      ∀ x : Row, binOf (cuts (idx.map (fun j => (rows.getD j (fun _ => 0)) 0))) (x 0) = binOf (cuts (idx.map (fun j => (rows.getD j (fun _ => 0)) 0))) ((rows.getD i (fun _ => 0)) 0) →
        total lr x ps = none := by
  induction idxs with
  | nil => intro err ps _ k' idx h; simp at h
  | cons a rest ih =>
    intro err ps hf k' idx hk hmem hcase x hx
    rw [fit] at hf
    cases hb : bestFeature cuts nf rows err a with
    | error e => rw [hb] at hf; cases hf
    | ok f =>
      rw [hb] at hf
      simp only at hf
      cases hr : fit lr cuts nf rows rest (residual lr rows err (stage cuts rows err a f)) with
      | error e => rw [hr] at hf; cases hf
      | ok qs =>
        rw [hr] at hf
        cases hf
        cases k' with
        | zero =>
          rw [List.getElem?_cons_zero, Option.some.injEq] at hk
          subst hk
          rcases hcase with he | ⟨k, _, hlt, _⟩
          · obtain ⟨h0, h1⟩ := C337_drawn cuts nf hn rows err a i hmem he
            rw [h0] at hb
            cases hb
            exact total_none_of_mem lr x _ ⟨_, List.mem_cons_self .., h1 x hx⟩
          · omega
        | succ k' =>
          rw [List.getElem?_cons_succ] at hk
          have hq : total lr x qs = none := by
            refine ih _ qs hr k' idx hk hmem ?_ x hx
            rcases hcase with he | ⟨k, p, hlt, hp, hpn⟩
            · exact Or.inl (residual_none lr _ err rows i he)
            · cases k with
              | zero =>
                left
                rw [List.getElem?_cons_zero, Option.some.injEq] at hp
                rw [residual_getD lr _ err rows i hi, hp, hpn]
                cases err.getD i none <;> rfl
              | succ k => exact Or.inr ⟨k, p, by omega, by rwa [List.getElem?_cons_succ] at hp, hpn⟩
          rw [total, hq]
          cases stage cuts rows err a f x <;> rfl

/-- A training row for which some stage is NaN, and which is drawn for a later one: from then on every row in the same bin of the first feature is forecast as NaN. -/
theorem C337_spread (lr : ℚ) (cuts : List ℚ → List ℚ) (nf : ℕ) (hn : 0 < nf) (rows : List Row) (y : List ℚ) (idxs : List (List ℕ)) (ps : List (Row → Option ℚ))
    (hf : fit lr cuts nf rows idxs (y.map some) = .ok ps) (i k k' : ℕ) (hi : i < rows.length) (hk : k < k') (p : Row → Option ℚ) (hp : ps[k]? = some p)
    (hpn : p (rows.getD i (fun _ => 0)) = none) (idx : List ℕ) (hidx : idxs[k']? = some idx) (hmem : i ∈ idx) (x : Row)
    (hx : binOf (cuts (idx.map (fun j => (rows.getD j (fun _ => 0)) 0))) (x 0) = binOf (cuts (idx.map (fun j => (rows.getD j (fun _ => 0)) 0))) ((rows.getD i (fun _ => 0)) 0)) :
    fitPredict lr cuts nf rows y idxs x = .ok none := by
  have ht := spread_aux lr cuts nf hn rows i hi idxs (y.map some) ps hf k' idx hidx hmem (Or.inr ⟨k, p, hk, hp, hpn⟩) x hx
  unfold fitPredict
  rw [hf]
  cases ps with
  | nil => simp at hp
  | cons q qs => exact congrArg Except.ok ht

end PyF.Brutal
