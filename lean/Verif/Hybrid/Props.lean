import Verif.Hybrid.Lemmas
import Mathlib.Data.Rat.Floor
import Mathlib.Tactic.FieldSimp
import Mathlib.Tactic.Positivity

namespace PyF.Hybrid

open PyF

/-- Value `k` of row `t`. -/
def at2 (y : List Row) (t k : ℕ) : ℚ := (y.getD t []).getD k 0

/-- Target `k` is a function of the features `f` on the frame. -/
def StepDet (f : Row → Row) (x y : List Row) (k : ℕ) : Prop :=
  ∀ t < x.length, ∀ t' < x.length, f (x.getD t []) = f (x.getD t' []) → at2 y t k = at2 y t' k

/-- What a successful fit did. -/
theorem hybridFit_inv (P : Env → Cfg → State → List Row → Except PyErr (List Row)) (E : Env) (c : Cfg) (old : State) (nT : ℕ) (x y : List Row) (draws : List (List ℕ))
    (st : State) (errs : List Row) (h : hybridFit P E c old nT x y draws = .ok (st, errs)) :
    ∃ new p, fitSingles E c.nSingle nT (Split.trainValSplit c.valRatio x y).1 (Split.trainValSplit c.valRatio x y).2.1 = .ok new ∧
      st.models = (if c.parallel then new else old.models ++ new) ∧ st.nMulti = nT - c.nSingle ∧ st.nTargets = nT ∧
      (0 < nT - c.nSingle → ∃ m, st.multi = some m ∧
        fitReg E (longSet c.nSingle (nT - c.nSingle) (Split.trainValSplit c.valRatio x y).1 (Split.trainValSplit c.valRatio x y).2.1 draws) = .ok m) ∧
      P E c st (Split.trainValSplit c.valRatio x y).2.2.1 = .ok p ∧ errs = List.zipWith errRow (Split.trainValSplit c.valRatio x y).2.2.2 p := by
  unfold hybridFit at h
  simp only at h
  cases h1 : fitSingles E c.nSingle nT (Split.trainValSplit c.valRatio x y).1 (Split.trainValSplit c.valRatio x y).2.1 with
  | error e => rw [h1] at h; cases h
  | ok new =>
    rw [h1] at h
    simp only at h
    by_cases hnm : 0 < nT - c.nSingle
    · rw [if_pos hnm] at h
      cases h2 : fitReg E (longSet c.nSingle (nT - c.nSingle) (Split.trainValSplit c.valRatio x y).1 (Split.trainValSplit c.valRatio x y).2.1 draws) with
      | error e => rw [h2] at h; cases h
      | ok m =>
        rw [h2] at h
        simp only [Except.map] at h
        split at h
        · cases h
        · rename_i p hp
          cases h
          exact ⟨new, p, rfl, rfl, rfl, rfl, fun _ => ⟨m, rfl, rfl⟩, hp, rfl⟩
    · rw [if_neg hnm] at h
      simp only at h
      split at h
      · cases h
      · rename_i p hp
        cases h
        exact ⟨new, p, rfl, rfl, rfl, rfl, fun hc => absurd hc hnm, hp, rfl⟩

theorem fitSingles_inv (E : Env) (n nT : ℕ) (x y : List Row) (ms : List Reg) (h : fitSingles E n nT x y = .ok ms) :
    n ≤ nT ∧ ms.length = n ∧ ∀ i < n, ∃ m, ms[i]? = some m ∧ fitReg E (singleSet E x y i) = .ok m := by
  unfold fitSingles at h
  obtain ⟨hl, he⟩ := mapM_inv _ _ _ h
  rw [List.length_range] at hl
  have hall : ∀ i < n, ¬ nT ≤ i ∧ ∃ m, ms[i]? = some m ∧ fitReg E (singleSet E x y i) = .ok m := by
    intro i hi
    obtain ⟨b, hb, hr⟩ := he i i (by rw [List.getElem?_range hi])
    by_cases hT : nT ≤ i
    · rw [if_pos hT] at hb; cases hb
    · rw [if_neg hT] at hb; exact ⟨hT, b, hr, hb⟩
  refine ⟨?_, hl, fun i hi => (hall i hi).2⟩
  by_contra hc
  exact (hall nT (by omega)).1 le_rfl

/-- **C141.** LGBMHybrid: whatever the learner, if it reproduces training sets that can be reproduced, the fitted object reproduces its training targets: at the first `n_single` steps on
all training rows, at later steps on the rows drawn for that step. So features, targets and step codes are paired alike in training and forecasting. -/
theorem C141_exact (E : Env) (hE : Interpolates E) (c : Cfg) (old : State) (hold : old.models = [] ∨ c.parallel = true) (nT : ℕ) (x y : List Row) (draws : List (List ℕ))
    (st : State) (errs : List Row) (h : hybridFit hybridPredict E c old nT x y draws = .ok (st, errs)) (xs ys : List Row)
    (hxs : xs = (Split.trainValSplit c.valRatio x y).1) (hys : ys = (Split.trainValSplit c.valRatio x y).2.1) (hlen : xs.length = ys.length)
    (hw : SameWidth xs) (hp : ∀ i, SameWidth (xs.map (E.prune i))) (hdraw : ∀ i, ∀ t ∈ draws.getD i [], t < xs.length)
    (hs : ∀ k < c.nSingle, StepDet (E.prune k) xs ys k) (hm : ∀ k, c.nSingle ≤ k → k < nT → StepDet id xs ys k) (t : ℕ) (ht : t < xs.length) :
    ∃ row, hybridRow E c st (xs.getD t []) = .ok row ∧ row.length = nT ∧ ∀ k < nT, (k < c.nSingle ∨ t ∈ draws.getD (k - c.nSingle) []) → row.getD k 0 = at2 ys t k := by
  obtain ⟨new, p, h1, h2, h3, h4, h5, _, _⟩ := hybridFit_inv _ E c old nT x y draws st errs h
  rw [← hxs, ← hys] at h1 h5
  obtain ⟨hn, hnl, hni⟩ := fitSingles_inv E c.nSingle nT xs ys new h1
  have hmod : st.models = new := by
    rw [h2]
    rcases hold with ho | ho
    · rw [ho]; simp
    · rw [ho]; simp
  have hmemx : ∀ u < xs.length, xs.getD u [] ∈ xs := by
    intro u hu
    rw [List.getD_eq_getElem?_getD, List.getElem?_eq_getElem hu]
    exact List.getElem_mem hu
  have hsingle : ∀ i ∈ List.range c.nSingle, predSingle E st.models i (xs.getD t []) = .ok (at2 ys t i) := by
    intro i hi
    have hi := List.mem_range.1 hi
    obtain ⟨m, hm1, hm2⟩ := hni i hi
    unfold predSingle
    rw [hmod, hm1]
    have hcons : Consistent (singleSet E xs ys i) := by
      intro a ha b hb hab
      obtain ⟨u, hu, rfl⟩ := (mem_singleSet E xs ys hlen i a).1 ha
      obtain ⟨v, hv, rfl⟩ := (mem_singleSet E xs ys hlen i b).1 hb
      exact hs i hi u hu v hv hab
    have hsw : SameWidth ((singleSet E xs ys i).map Prod.fst) := by
      intro a ha b hb
      obtain ⟨a', ha', rfl⟩ := List.mem_map.1 ha
      obtain ⟨b', hb', rfl⟩ := List.mem_map.1 hb
      obtain ⟨u, hu, rfl⟩ := (mem_singleSet E xs ys hlen i a').1 ha'
      obtain ⟨v, hv, rfl⟩ := (mem_singleSet E xs ys hlen i b').1 hb'
      exact hp i _ (List.mem_map_of_mem (hmemx u hu)) _ (List.mem_map_of_mem (hmemx v hv))
    exact predReg_exact E hE _ hcons hsw m hm2 (E.prune i (xs.getD t []), at2 ys t i) ((mem_singleSet E xs ys hlen i _).2 ⟨t, ht, rfl⟩)
  have hlong : ∀ i < nT - c.nSingle, ∃ v, predMulti st.multi i (xs.getD t []) = .ok v ∧ (t ∈ draws.getD i [] → v = at2 ys t (c.nSingle + i)) := by
    intro i hi
    obtain ⟨m, hm1, hm2⟩ := h5 (by omega)
    unfold predMulti
    rw [hm1]
    simp only
    have hcons : Consistent (longSet c.nSingle (nT - c.nSingle) xs ys draws) := by
      intro a ha b hb hab
      obtain ⟨j, hj, u, hu, rfl⟩ := (mem_longSet _ _ _ _ _ a).1 ha
      obtain ⟨l, hl, v, hv, rfl⟩ := (mem_longSet _ _ _ _ _ b).1 hb
      simp only at hab
      obtain ⟨e1, e2⟩ := List.append_inj' hab rfl
      have e3 : j = l := by simpa using e2
      subst e3
      exact hm (c.nSingle + j) (by omega) (by omega) u (hdraw j u hu) v (hdraw j v hv) e1
    have hsw : SameWidth ((longSet c.nSingle (nT - c.nSingle) xs ys draws).map Prod.fst) := by
      intro a ha b hb
      obtain ⟨a', ha', rfl⟩ := List.mem_map.1 ha
      obtain ⟨b', hb', rfl⟩ := List.mem_map.1 hb
      obtain ⟨j, hj, u, hu, rfl⟩ := (mem_longSet _ _ _ _ _ a').1 ha'
      obtain ⟨l, hl, v, hv, rfl⟩ := (mem_longSet _ _ _ _ _ b').1 hb'
      simp only [List.length_append, List.length_singleton]
      rw [hw _ (hmemx u (hdraw j u hu)) _ (hmemx v (hdraw l v hv))]
    obtain ⟨_, q, hq, _⟩ := fitReg_ok E _ m hm2
    have hq0 := hq
    obtain ⟨l, hl, v, hv, rfl⟩ := (mem_longSet _ _ _ _ _ q).1 hq
    refine ⟨_, predReg_width E _ hsw m hm2 _ ⟨_, hq0, ?_⟩, ?_⟩
    · simp only [List.length_append, List.length_singleton]
      rw [hw _ (hmemx t ht) _ (hmemx v (hdraw l v hv))]
    · intro htd
      exact hE _ hcons (xs.getD t [] ++ [(i : ℚ)], at2 ys t (c.nSingle + i)) ((mem_longSet _ _ _ _ _ _).2 ⟨i, hi, t, htd, rfl⟩)
  have hlong2 : ∃ b, (List.range st.nMulti).mapM (fun i => predMulti st.multi i (xs.getD t [])) = .ok b := by
    cases hb : (List.range st.nMulti).mapM (fun i => predMulti st.multi i (xs.getD t [])) with
    | ok b => exact ⟨b, rfl⟩
    | error e =>
      exfalso
      have : (List.range st.nMulti).mapM (fun i => predMulti st.multi i (xs.getD t [])) = .ok ((List.range st.nMulti).map (fun i => match predMulti st.multi i (xs.getD t []) with | .ok v => v | .error _ => 0)) := by
        apply mapM_ok
        intro i hi
        rw [h3] at hi
        obtain ⟨v, hv, _⟩ := hlong i (List.mem_range.1 hi)
        rw [hv]
      rw [hb] at this; cases this
  obtain ⟨b, hb⟩ := hlong2
  obtain ⟨hbl, hbe⟩ := mapM_inv _ _ _ hb
  rw [List.length_range, h3] at hbl
  refine ⟨(List.range c.nSingle).map (at2 ys t) ++ b, ?_, ?_, ?_⟩
  · unfold hybridRow
    rw [mapM_ok _ (at2 ys t) _ hsingle]
    simp only
    rw [hb]
  · rw [List.length_append, List.length_map, List.length_range, hbl]; omega
  · intro k hk hcase
    rw [List.getD_eq_getElem?_getD]
    by_cases hks : k < c.nSingle
    · rw [List.getElem?_append_left (by simpa using hks), List.getElem?_map, List.getElem?_range hks]
      rfl
    · have hkd := hcase.resolve_left hks
      rw [List.getElem?_append_right (by simpa using not_lt.1 hks), List.length_map, List.length_range]
      obtain ⟨v, hv, hr⟩ := hbe (k - c.nSingle) (k - c.nSingle) (by rw [h3, List.getElem?_range (by omega)])
      obtain ⟨v', hv', hx⟩ := hlong (k - c.nSingle) (by omega)
      rw [hv'] at hv
      cases hv
      rw [hr, Option.getD_some, hx hkd]
      congr 1; omega

/-- **C141.** A step count beyond the targets is an IndexError. -/
theorem C141_too_many (P : Env → Cfg → State → List Row → Except PyErr (List Row)) (E : Env) (c : Cfg) (old : State) (nT : ℕ) (h : nT < c.nSingle) (x y : List Row) (draws : List (List ℕ)) :
    ∃ e, hybridFit P E c old nT x y draws = .error e := by
  cases hf : hybridFit P E c old nT x y draws with
  | error e => exact ⟨e, rfl⟩
  | ok r =>
    obtain ⟨new, _, h1, _⟩ := hybridFit_inv P E c old nT x y draws r.1 r.2 hf
    have := (fitSingles_inv E _ _ _ _ new h1).1
    omega

/-- **C142.** Size of the training set of the global model: `n_batch` rows per step, the rounded-down larger of `len / n_multistep` and `red_frac * len`; one is all rows, and it is
empty iff both are below one. -/
theorem C142_batch (rf : ℚ) (hrf : 0 ≤ rf) (nm len : ℕ) (hnm : 0 < nm) :
    (nBatch rf nm len : ℚ) ≤ max ((len : ℚ) / nm) (rf * len) ∧ max ((len : ℚ) / nm) (rf * len) < nBatch rf nm len + 1 ∧
    (rf = 1 → nBatch rf nm len = len) ∧ (nBatch rf nm len = 0 ↔ len < nm ∧ rf * len < 1) := by
  have hnmq : (0 : ℚ) < nm := by exact_mod_cast hnm
  have hlen : (0 : ℚ) ≤ len := Nat.cast_nonneg _
  have e : (len : ℚ) * (max 1 (rf * nm) / nm) = max ((len : ℚ) / nm) (rf * len) := by
    rw [← mul_div_assoc, mul_max_of_nonneg _ _ hlen, ← max_div_div_right hnmq.le]
    congr 1
    · rw [mul_one]
    · field_simp
  have hnn : 0 ≤ max ((len : ℚ) / nm) (rf * len) := le_max_of_le_left (by positivity)
  have hcast : ((nBatch rf nm len : ℕ) : ℚ) = ((⌊max ((len : ℚ) / nm) (rf * len)⌋ : ℤ) : ℚ) := by
    unfold nBatch
    rw [e]
    have := Int.toNat_of_nonneg (Int.floor_nonneg.2 hnn)
    exact_mod_cast congrArg (fun z : ℤ => (z : ℚ)) this
  have h1 : (nBatch rf nm len : ℚ) ≤ max ((len : ℚ) / nm) (rf * len) := by rw [hcast]; exact Int.floor_le _
  have h2 : max ((len : ℚ) / nm) (rf * len) < nBatch rf nm len + 1 := by rw [hcast]; exact Int.lt_floor_add_one _
  refine ⟨h1, h2, ?_, ?_⟩
  · rintro rfl
    have hmax : max ((len : ℚ) / nm) (1 * len) = len := by
      rw [one_mul]
      apply max_eq_right
      apply div_le_self hlen
      exact_mod_cast hnm
    rw [hmax] at h1 h2
    have a : nBatch 1 nm len ≤ len := by exact_mod_cast h1
    have b : len < nBatch 1 nm len + 1 := by exact_mod_cast h2
    omega
  · constructor
    · intro h0
      rw [h0, Nat.cast_zero, zero_add] at h2
      obtain ⟨a, b⟩ := max_lt_iff.1 h2
      refine ⟨?_, b⟩
      rw [div_lt_one hnmq] at a
      exact_mod_cast a
    · rintro ⟨a, b⟩
      have a' : (len : ℚ) / nm < 1 := by rw [div_lt_one hnmq]; exact_mod_cast a
      have : (nBatch rf nm len : ℚ) < 1 := h1.trans_lt (max_lt a' b)
      have : nBatch rf nm len < 1 := by exact_mod_cast this
      omega

end PyF.Hybrid
