import Verif.Brutal.Props
import Verif.Tune.Lemmas
import Verif.Quantile.Units

/-!
C335: units of the features of `BrutalRegressor` and rows beyond the training data, with the cuts of the code.
-/

namespace PyF.Brutal

open PyF PyF.Tune PyF.Boost

/-- The rows with feature `f` changed by `φ f`. -/
def changeRow (φ : ℕ → ℚ → ℚ) (x : Row) : Row := fun f => φ f (x f)

/-- The changes `φ` leave the bins as they are. -/
def KeepsBins (cuts : List ℚ → List ℚ) (φ : ℕ → ℚ → ℚ) : Prop :=
  ∀ (f : ℕ) (l : List ℚ) (x : ℚ), l ≠ [] → binOf (cuts (l.map (φ f))) (φ f x) = binOf (cuts l) x

theorem bootOf_change (φ : ℕ → ℚ → ℚ) (rows : List Row) (err : List (Option ℚ)) (idx : List ℕ) (hi : ∀ i ∈ idx, i < rows.length) (f : ℕ) :
    bootOf (rows.map (changeRow φ)) err idx f = (bootOf rows err idx f).map (fun r => (φ f r.1, r.2)) := by
  unfold bootOf
  rw [List.map_map]
  apply List.map_congr_left
  intro i h
  have := hi i h
  simp only [Function.comp_apply, Prod.mk.injEq, and_true, List.getD_eq_getElem?_getD, List.getElem?_map, List.getElem?_eq_getElem this, Option.map_some, Option.getD_some]
  rfl

theorem fst_change (φ : ℚ → ℚ) (boot : List (ℚ × Option ℚ)) : (boot.map (fun r => (φ r.1, r.2))).map Prod.fst = (boot.map Prod.fst).map φ := by
  rw [List.map_map, List.map_map]
  rfl

theorem response_change {cuts : List ℚ → List ℚ} {φ : ℕ → ℚ → ℚ} (hφ : KeepsBins cuts φ) (boot : List (ℚ × Option ℚ)) (hb : boot ≠ []) (f : ℕ) (x : ℚ) :
    response (cuts ((boot.map (fun r => (φ f r.1, r.2))).map Prod.fst)) (boot.map (fun r => (φ f r.1, r.2))) (φ f x) = response (cuts (boot.map Prod.fst)) boot x := by
  have hn : boot.map Prod.fst ≠ [] := fun h => hb (List.map_eq_nil_iff.1 h)
  rw [fst_change]
  unfold response
  rw [hφ f _ x hn, List.filter_map, List.map_map]
  have : ((fun r : ℚ × Option ℚ => binOf (cuts ((boot.map Prod.fst).map (φ f))) r.1 == binOf (cuts (boot.map Prod.fst)) x) ∘ fun (r : ℚ × Option ℚ) => (φ f r.1, r.2))
      = fun (r : ℚ × Option ℚ) => binOf (cuts (boot.map Prod.fst)) r.1 == binOf (cuts (boot.map Prod.fst)) x := by
    funext r
    simp only [Function.comp_apply, hφ f _ r.1 hn]
  rw [this]
  rfl

theorem score_change {cuts : List ℚ → List ℚ} {φ : ℕ → ℚ → ℚ} (hφ : KeepsBins cuts φ) (boot : List (ℚ × Option ℚ)) (hb : boot ≠ []) (f : ℕ) :
    score (cuts ((boot.map (fun r => (φ f r.1, r.2))).map Prod.fst)) (boot.map (fun r => (φ f r.1, r.2))) = score (cuts (boot.map Prod.fst)) boot := by
  unfold score
  rw [List.map_map]
  congr 1
  apply List.map_congr_left
  intro r _
  simp only [Function.comp_apply]
  rw [response_change hφ boot hb]

theorem bootOf_ne (rows : List Row) (err : List (Option ℚ)) {idx : List ℕ} (hi : idx ≠ []) (f : ℕ) : bootOf rows err idx f ≠ [] :=
  fun h => hi (List.map_eq_nil_iff.1 h)

theorem bestFeature_change {cuts : List ℚ → List ℚ} {φ : ℕ → ℚ → ℚ} (hφ : KeepsBins cuts φ) (nf : ℕ) (rows : List Row) (err : List (Option ℚ)) (idx : List ℕ)
    (hi : ∀ i ∈ idx, i < rows.length) : bestFeature cuts nf (rows.map (changeRow φ)) err idx = bestFeature cuts nf rows err idx := by
  unfold bestFeature
  by_cases hn : nf = 0
  · rw [if_pos hn, if_pos hn]
  rw [if_neg hn, if_neg hn]
  by_cases he : idx = []
  · rw [if_pos he, if_pos he]
  rw [if_neg he, if_neg he]
  congr 1
  apply List.map_congr_left
  intro f _
  rw [bootOf_change φ rows err idx hi, score_change hφ _ (bootOf_ne rows err he f)]

theorem stage_change {cuts : List ℚ → List ℚ} {φ : ℕ → ℚ → ℚ} (hφ : KeepsBins cuts φ) (rows : List Row) (err : List (Option ℚ)) (idx : List ℕ) (he : idx ≠ [])
    (hi : ∀ i ∈ idx, i < rows.length) (f : ℕ) (x : Row) : stage cuts (rows.map (changeRow φ)) err idx f (changeRow φ x) = stage cuts rows err idx f x := by
  unfold stage
  rw [bootOf_change φ rows err idx hi]
  exact response_change hφ _ (bootOf_ne rows err he f) f (x f)

theorem residual_change (lr : ℚ) (φ : ℕ → ℚ → ℚ) (p p' : Row → Option ℚ) (h : ∀ x, p' (changeRow φ x) = p x) (err : List (Option ℚ)) :
    ∀ rows : List Row, residual lr (rows.map (changeRow φ)) err p' = residual lr rows err p := by
  unfold residual
  induction err with
  | nil => intro rows; simp
  | cons e err ih =>
    intro rows
    cases rows with
    | nil => simp
    | cons x rows => rw [List.map_cons, List.zipWith_cons_cons, List.zipWith_cons_cons, ih rows, h]

theorem bestFeature_ok_ne {cuts : List ℚ → List ℚ} {nf : ℕ} {rows : List Row} {err : List (Option ℚ)} {idx : List ℕ} {f : ℕ}
    (h : bestFeature cuts nf rows err idx = .ok f) : idx ≠ [] := by
  intro he
  unfold bestFeature at h
  rw [if_pos he] at h
  split at h <;> cases h

theorem fit_change {cuts : List ℚ → List ℚ} {φ : ℕ → ℚ → ℚ} (hφ : KeepsBins cuts φ) (lr : ℚ) (nf : ℕ) (rows : List Row) (idxs : List (List ℕ)) :
    ∀ err : List (Option ℚ), (∀ idx ∈ idxs, ∀ i ∈ idx, i < rows.length) →
      (∃ e, fit lr cuts nf rows idxs err = .error e ∧ fit lr cuts nf (rows.map (changeRow φ)) idxs err = .error e) ∨
      ∃ ps ps', fit lr cuts nf rows idxs err = .ok ps ∧ fit lr cuts nf (rows.map (changeRow φ)) idxs err = .ok ps' ∧ ps.length = ps'.length ∧
        ∀ x, total lr (changeRow φ x) ps' = total lr x ps := by
  induction idxs with
  | nil => intro err _; right; exact ⟨[], [], rfl, rfl, rfl, fun _ => rfl⟩
  | cons idx rest ih =>
    intro err hi
    have hi0 := hi idx (List.mem_cons_self ..)
    rw [fit, fit, bestFeature_change hφ nf rows err idx hi0]
    cases hb : bestFeature cuts nf rows err idx with
    | error e => left; exact ⟨e, rfl, rfl⟩
    | ok f =>
      have he := bestFeature_ok_ne hb
      simp only
      rw [residual_change lr φ (stage cuts rows err idx f) _ (fun x => stage_change hφ rows err idx he hi0 f x)]
      rcases ih (residual lr rows err (stage cuts rows err idx f)) (fun j hj => hi j (List.mem_cons_of_mem _ hj)) with ⟨e, h1, h2⟩ | ⟨ps, ps', h1, h2, h3, h4⟩
      · left
        rw [h1, h2]
        exact ⟨e, rfl, rfl⟩
      · right
        rw [h1, h2]
        refine ⟨_, _, rfl, rfl, by simp [h3], fun x => ?_⟩
        rw [total, total, stage_change hφ rows err idx he hi0, h4]

theorem quantileVal_affine (l : List ℚ) (hl : l ≠ []) (q : ℚ) (h0 : 0 ≤ q) (h1 : q ≤ 1) (a b : ℚ) (ha : 0 < a) :
    Quantile.quantileVal (l.map (fun x => a * x + b)) q = a * Quantile.quantileVal l q + b := by
  rcases Nat.lt_or_ge l.length 2 with h | h
  · obtain ⟨x, rfl⟩ : ∃ x, l = [x] := List.length_eq_one_iff.1 (by have := List.length_pos_of_ne_nil hl; omega)
    rw [List.map_singleton, Quantile.quantileVal_single _ _ h0 h1, Quantile.quantileVal_single _ _ h0 h1]
  · obtain ⟨m, γ, hm, g0, g1, hq⟩ := Quantile.level_split l.length h q h0 h1
    set s := l.insertionSort (· ≤ ·) with hs
    have hp : s.Perm l := List.perm_insertionSort _ l
    have hlen : s.length = l.length := hp.length_eq
    have hsort : s.Pairwise (· ≤ ·) := Quantile.sort_pairwise l
    have e1 := Quantile.C05_linear_interpolation l s hp hsort m (by omega) γ g0 g1
    have e2 := Quantile.C05_linear_interpolation (l.map (fun x => a * x + b)) (s.map (fun x => a * x + b)) (hp.map _)
      (List.pairwise_map.2 (hsort.imp fun hab => by nlinarith)) m (by rw [List.length_map]; omega) γ g0 g1
    rw [List.length_map] at e2
    rw [hq, e1, e2, List.getElem_map, List.getElem_map]
    ring

/-- The level of an inner cut lies between 0 and 1. -/
theorem level_bounds (nb k : ℕ) (hk : k < nb) : 0 ≤ ((k : ℚ) + 1) / ((nb : ℚ) + 1) ∧ ((k : ℚ) + 1) / ((nb : ℚ) + 1) ≤ 1 := by
  have h1 : (0 : ℚ) ≤ k := Nat.cast_nonneg k
  have h2 : (k : ℚ) + 1 ≤ nb := by exact_mod_cast hk
  constructor
  · exact div_nonneg (by linarith) (by linarith)
  · rw [div_le_one (by linarith)]
    linarith

theorem cutsOf_keepsBins (nb : ℕ) (a b : ℕ → ℚ) (ha : ∀ f, 0 < a f) : KeepsBins (cutsOf nb) (fun f x => a f * x + b f) := by
  intro f l x hl
  unfold binOf cutsOf
  rw [List.countP_map, List.countP_map]
  apply List.countP_congr
  intro k hk
  obtain ⟨h0, h1⟩ := level_bounds nb k (List.mem_range.1 hk)
  simp only [Function.comp_apply, decide_eq_true_eq]
  rw [quantileVal_affine l hl _ h0 h1 (a f) (b f) (ha f)]
  constructor
  · intro h; nlinarith [ha f]
  · intro h; nlinarith [ha f]

/-- Features in other units and with other origins, in training and prediction alike: the same exception, NaN or forecast. -/
theorem C335_units (lr : ℚ) (nb nf : ℕ) (rows : List Row) (y : List ℚ) (idxs : List (List ℕ)) (hi : ∀ idx ∈ idxs, ∀ i ∈ idx, i < rows.length) (x : Row)
    (a b : ℕ → ℚ) (ha : ∀ f, 0 < a f) :
    fitPredict lr (cutsOf nb) nf (rows.map (fun r f => a f * r f + b f)) y idxs (fun f => a f * x f + b f) = fitPredict lr (cutsOf nb) nf rows y idxs x := by
  unfold fitPredict
  rcases fit_change (cutsOf_keepsBins nb a b ha) lr nf rows idxs (y.map some) hi with ⟨e, h1, h2⟩ | ⟨ps, ps', h1, h2, h3, h4⟩
  · have h2' : fit lr (cutsOf nb) nf (rows.map (fun r f => a f * r f + b f)) idxs (y.map some) = .error e := h2
    rw [h1, h2']
  · have h2' : fit lr (cutsOf nb) nf (rows.map (fun r f => a f * r f + b f)) idxs (y.map some) = .ok ps' := h2
    rw [h1, h2']
    cases ps with
    | nil =>
      have : ps' = [] := List.length_eq_zero_iff.1 h3.symm
      rw [this]
    | cons p ps =>
      cases ps' with
      | nil => simp at h3
      | cons p' ps' => exact congrArg Except.ok (h4 x)

theorem quantile_within (l : List ℚ) (hl : l ≠ []) (q : ℚ) (h0 : 0 ≤ q) (h1 : q ≤ 1) : (∃ e ∈ l, e ≤ Quantile.quantileVal l q) ∧ ∃ e ∈ l, Quantile.quantileVal l q ≤ e := by
  have hw := Quantile.C05_is_empirical_quantile l q hl h0 h1
  exact Quantile.within_of_isEmpirical hl h0 h1 hw.1

/-- Two values beyond the training data on the same side. -/
def SameSide (vals : List ℚ) (u v : ℚ) : Prop := (∀ t ∈ vals, t ≤ u ∧ t ≤ v) ∨ ∀ t ∈ vals, u < t ∧ v < t

theorem binOf_sameSide (nb : ℕ) (l vals : List ℚ) (hl : l ≠ []) (hsub : ∀ t ∈ l, t ∈ vals) (u v : ℚ) (h : SameSide vals u v) : binOf (cutsOf nb l) u = binOf (cutsOf nb l) v := by
  unfold binOf cutsOf
  rw [List.countP_map, List.countP_map]
  apply List.countP_congr
  intro k hk
  obtain ⟨h0, h1⟩ := level_bounds nb k (List.mem_range.1 hk)
  obtain ⟨⟨e, he, hle⟩, ⟨e', he', hle'⟩⟩ := quantile_within l hl _ h0 h1
  simp only [Function.comp_apply, decide_eq_true_eq]
  rcases h with h | h
  · exact ⟨fun _ => hle'.trans (h e' (hsub e' he')).2, fun _ => hle'.trans (h e' (hsub e' he')).1⟩
  · exact ⟨fun hc => absurd (hle.trans hc) (not_le.2 (h e (hsub e he)).1), fun hc => absurd (hle.trans hc) (not_le.2 (h e (hsub e he)).2)⟩

theorem argmin_lt {s : List Score} {b : ℕ} (h : argmin s = .ok b) : b < s.length := by
  unfold argmin at h
  by_cases hs : s = []
  · rw [if_pos hs] at h; cases h
  · rw [if_neg hs] at h
    by_cases hn : none ∈ s
    · rw [if_pos hn] at h
      cases h
      exact List.idxOf_lt_length_of_mem hn
    · obtain ⟨v, hv, -⟩ := argmin_min s b (by unfold argmin; rw [if_neg hs]; exact h) hn
      exact (List.getElem?_eq_some_iff.1 hv).1

theorem fit_sameSide (lr : ℚ) (nb nf : ℕ) (rows : List Row) (u v : Row) (h : ∀ f < nf, u f = v f ∨ SameSide (rows.map (fun r => r f)) (u f) (v f)) (idxs : List (List ℕ)) :
    ∀ (err : List (Option ℚ)) (ps : List (Row → Option ℚ)), (∀ idx ∈ idxs, ∀ i ∈ idx, i < rows.length) → fit lr (cutsOf nb) nf rows idxs err = .ok ps →
      total lr u ps = total lr v ps := by
  induction idxs with
  | nil => intro err ps _ hf; cases hf; rfl
  | cons idx rest ih =>
    intro err ps hi hf
    rw [fit] at hf
    cases hb : bestFeature (cutsOf nb) nf rows err idx with
    | error e => rw [hb] at hf; cases hf
    | ok f =>
      rw [hb] at hf
      simp only at hf
      have he := bestFeature_ok_ne hb
      have hfn : f < nf := by
        unfold bestFeature at hb
        split at hb
        · cases hb
        · have := argmin_lt hb
          rwa [List.length_map, List.length_range] at this
      cases hr : fit lr (cutsOf nb) nf rows rest (residual lr rows err (stage (cutsOf nb) rows err idx f)) with
      | error e => rw [hr] at hf; cases hf
      | ok qs =>
        rw [hr] at hf
        cases hf
        have hs : stage (cutsOf nb) rows err idx f u = stage (cutsOf nb) rows err idx f v := by
          unfold stage response
          rcases h f hfn with hq | hq
          · rw [hq]
          · rw [binOf_sameSide nb ((bootOf rows err idx f).map Prod.fst) (rows.map (fun r => r f)) (fun hn => bootOf_ne rows err he f (List.map_eq_nil_iff.1 hn)) ?_ (u f) (v f) hq]
            intro t ht
            obtain ⟨r, hr, rfl⟩ := List.mem_map.1 ht
            obtain ⟨i, hii, rfl⟩ := List.mem_map.1 hr
            have hlt := hi idx (List.mem_cons_self ..) i hii
            simp only [List.getD_eq_getElem?_getD, List.getElem?_eq_getElem hlt, Option.getD_some]
            exact List.mem_map.2 ⟨rows[i], List.getElem_mem hlt, rfl⟩
        rw [total, total, hs, ih _ qs (fun j hj => hi j (List.mem_cons_of_mem _ hj)) hr]

/-- Two rows that differ only in features beyond the training data, on the same side, get the same forecast: there is no extrapolation. -/
theorem C335_beyond (lr : ℚ) (nb nf : ℕ) (rows : List Row) (y : List ℚ) (idxs : List (List ℕ)) (hi : ∀ idx ∈ idxs, ∀ i ∈ idx, i < rows.length) (u v : Row)
    (h : ∀ f < nf, u f = v f ∨ SameSide (rows.map (fun r => r f)) (u f) (v f)) :
    fitPredict lr (cutsOf nb) nf rows y idxs u = fitPredict lr (cutsOf nb) nf rows y idxs v := by
  unfold fitPredict
  cases hf : fit lr (cutsOf nb) nf rows idxs (y.map some) with
  | error e => rfl
  | ok ps =>
    cases ps with
    | nil => rfl
    | cons p ps => exact congrArg Except.ok (fit_sameSide lr nb nf rows u v h idxs (y.map some) (p :: ps) hi hf)

end PyF.Brutal
