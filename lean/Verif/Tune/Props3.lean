import Verif.Tune.Props2

namespace PyF.Tune

set_option linter.unusedSectionVars false

open PyF

variable {N σ : Type} [DecidableEq N]

/-! ### C157: HoltWintersMulti -/

/-- The four names `reinit_pars` sets are different. -/
structure Names.Distinct (nm : Names N) : Prop where
  a1 : nm.gamma1 ≠ nm.alpha
  a2 : nm.gamma2 ≠ nm.alpha
  a3 : nm.nsa ≠ nm.alpha
  a4 : nm.gamma2 ≠ nm.gamma1
  a5 : nm.nsa ≠ nm.gamma1
  a6 : nm.nsa ≠ nm.gamma2

theorem nth_ok (l : Option (List ℚ)) (n i : ℕ) (q : ℚ) (h : nth l n i = .ok q) : (l.getD (List.replicate n (1 / 100)))[i]? = some q := by
  unfold nth at h
  split at h
  · next v hv => cases h; exact hv
  · cases h

theorem subModel_ok (C : Cls N σ) (nm : Names N) (kw : MKw N) (t : N) (i h : ℕ) (o : Obj N σ) (he : subModel C nm kw t i h = .ok o) :
    ∃ a g1 g2, nth kw.alphas kw.horizons.length i = .ok a ∧ nth kw.gammas1 kw.horizons.length i = .ok g1 ∧ nth kw.gammas2 kw.horizons.length i = .ok g2 ∧
      o.attrs = normKw t (subKw nm kw t h a g1 g2) ∧ o.st = C.state0 o.attrs ∧ o.init = o.attrs ∧ mk C (subKw nm kw t h a g1 g2) = .ok o := by
  unfold subModel at he
  split at he
  · next a g1 g2 h1 h2 h3 =>
    refine ⟨a, g1, g2, h1, h2, h3, ?_⟩
    obtain ⟨tn, htn, -, rfl⟩ := mk_ok C _ _ he
    have : tn = t := (Option.some.inj htn).symm
    subst this
    exact ⟨rfl, rfl, rfl, he⟩
  · cases he

theorem subModels_ok (C : Cls N σ) (nm : Names N) (kw : MKw N) (ms : List (Obj N σ)) (h : subModels C nm kw = .ok ms) :
    ∃ t, kw.base.targetName = some t ∧ ms.length = kw.horizons.length ∧
      ∀ (i hz : ℕ), kw.horizons[i]? = some hz → ∃ m, ms[i]? = some m ∧ subModel C nm kw t i hz = .ok m := by
  unfold subModels at h
  cases ht : kw.base.targetName with
  | none => rw [ht] at h; cases h
  | some t =>
    simp only [ht] at h
    obtain ⟨hl, he⟩ := Hybrid.mapM_inv _ _ _ h
    refine ⟨t, rfl, by rw [hl]; simp, fun i hz hi => ?_⟩
    obtain ⟨m, h1, h2⟩ := he i (hz, i) (by rw [List.getElem?_zipIdx, hi]; simp)
    exact ⟨m, h2, h1⟩

theorem fitAll_ok (C : Cls N σ) (trials : ℕ → List (List (N × Val))) (ms r : List (Obj N σ)) (x : Frame N) (h : fitAll C trials ms x = .ok r) :
    r.length = ms.length ∧ ∀ (i : ℕ) (m : Obj N σ), ms[i]? = some m → ∃ m', r[i]? = some m' ∧ fitObj C (trials i) m x = .ok m' := by
  unfold fitAll at h
  obtain ⟨hl, he⟩ := Hybrid.mapM_inv _ _ _ h
  refine ⟨by rw [hl]; simp, fun i m hi => ?_⟩
  obtain ⟨m', h1, h2⟩ := he i (m, i) (by rw [List.getElem?_zipIdx, hi]; simp)
  exact ⟨m', h2, h1⟩

theorem fitObj_plain (C : Cls N σ) (trials : List (List (N × Val))) (o o' : Obj N σ) (x : Frame N) (ho : o.attrs.optimize = false) (h : fitObj C trials o x = .ok o') :
    o'.attrs = o.attrs ∧ o'.init = o.init ∧ C.fitCore o.attrs o.st x = .ok o'.st := by
  unfold fitObj at h
  rw [ho] at h
  simp only [Bool.false_eq_true, if_false] at h
  cases hc : C.fitCore o.attrs o.st x with
  | error e => rw [hc] at h; cases h
  | ok st => rw [hc] at h; cases h; exact ⟨rfl, rfl, rfl⟩

/-- C157: without any search, submodel `i` has horizon `models_periods[i]`, the `i`-th smoothing parameters (0.01 if none are given), the copied parameters of the combined model,
and is fitted from its initial states. -/
theorem C157_untuned (C : Cls N σ) (nm : Names N) (hnm : nm.Distinct) (trials : ℕ → List (List (N × Val))) (kw kw' : MKw N) (x : Frame N) (ms : List (Obj N σ))
    (h1 : kw.base.optimize = false) (h2 : kw.optSub = false) (h : fitMulti C nm trials kw x = .ok (kw', ms)) :
    kw' = kw ∧ ms.length = kw.horizons.length ∧ ∀ (i hz : ℕ), kw.horizons[i]? = some hz → ∃ m a g1 g2, ms[i]? = some m ∧
      (kw.alphas.getD (List.replicate kw.horizons.length (1 / 100)))[i]? = some a ∧ (kw.gammas1.getD (List.replicate kw.horizons.length (1 / 100)))[i]? = some g1 ∧
      (kw.gammas2.getD (List.replicate kw.horizons.length (1 / 100)))[i]? = some g2 ∧
      m.attrs.pars nm.alpha = some (.num a) ∧ m.attrs.pars nm.gamma1 = some (.num g1) ∧ m.attrs.pars nm.gamma2 = some (.num g2) ∧ m.attrs.pars nm.nsa = some (.num hz) ∧
      m.attrs.targetName = kw.base.targetName ∧ m.attrs.optimize = false ∧ C.fitCore m.attrs (C.state0 m.attrs) x = .ok m.st := by
  unfold fitMulti at h
  rw [h1] at h
  simp only [Bool.false_eq_true, if_false] at h
  cases hs : subModels C nm kw with
  | error e => rw [hs] at h; cases h
  | ok ms0 =>
    simp only [hs] at h
    cases hf : fitAll C trials ms0 x with
    | error e => rw [hf] at h; cases h
    | ok r =>
      rw [hf] at h
      cases h
      obtain ⟨t, ht, hl, hsub⟩ := subModels_ok C nm kw ms0 hs
      obtain ⟨hl2, hfit⟩ := fitAll_ok C trials ms0 ms x hf
      refine ⟨rfl, hl2.trans hl, fun i hz hi => ?_⟩
      obtain ⟨m0, hm0, hsm⟩ := hsub i hz hi
      obtain ⟨m, hm, hfo⟩ := hfit i m0 hm0
      obtain ⟨a, g1, g2, e1, e2, e3, e4, e5, -, -⟩ := subModel_ok C nm kw t i hz m0 hsm
      obtain ⟨f1, -, f2⟩ := fitObj_plain C _ m0 m x (by rw [e4]; exact h2) hfo
      refine ⟨m, a, g1, g2, hm, nth_ok _ _ _ _ e1, nth_ok _ _ _ _ e2, nth_ok _ _ _ _ e3, ?_, ?_, ?_, ?_, ?_, ?_, ?_⟩
      · rw [f1, e4]; simp [normKw, subKw]
      · rw [f1, e4]; simp [normKw, subKw, hnm.a1]
      · rw [f1, e4]; simp [normKw, subKw, hnm.a2, hnm.a4]
      · rw [f1, e4]; simp [normKw, subKw, hnm.a3, hnm.a5, hnm.a6]
      · rw [f1, e4, ht]; rfl
      · rw [f1, e4]; exact h2
      · rw [f1, ← e5]; exact f2

/-- C157: after a `fit` with a search, all searches are switched off; submodel `i` carries the smoothing parameters that a submodel with the given keywords and its own horizon ends
with after its own `fit`, and is fitted from its initial states on the same data. -/
theorem C157_tuned (C : Cls N σ) (nm : Names N) (hnm : nm.Distinct) (trials : ℕ → List (List (N × Val))) (kw kw' : MKw N) (x : Frame N) (ms : List (Obj N σ))
    (h1 : kw.base.optimize = true) (h : fitMulti C nm trials kw x = .ok (kw', ms)) :
    kw'.base.optimize = false ∧ kw'.optSub = false ∧ ms.length = kw.horizons.length ∧ kw'.horizons = kw.horizons ∧
      ∃ t, kw.base.targetName = some t ∧ ∀ (i hz : ℕ), kw.horizons[i]? = some hz → ∃ m m0 m1, ms[i]? = some m ∧
        subModel C nm kw t i hz = .ok m0 ∧ fitObj C (trials i) m0 x = .ok m1 ∧
        (∀ k ∈ [nm.alpha, nm.gamma1, nm.gamma2], ∀ q, m1.attrs.pars k = some (.num q) → m.attrs.pars k = some (.num q)) ∧ m.attrs.pars nm.nsa = some (.num hz) ∧
        m.attrs.targetName = some t ∧ m.attrs.optimize = false ∧ C.fitCore m.attrs (C.state0 m.attrs) x = .ok m.st := by
  unfold fitMulti at h
  rw [if_pos h1] at h
  cases htm : tuneMulti C nm trials kw x with
  | error e => rw [htm] at h; cases h
  | ok p =>
    obtain ⟨kw2, msb⟩ := p
    simp only [htm] at h
    unfold tuneMulti at htm
    cases hs : subModels C nm kw with
    | error e => rw [hs] at htm; cases htm
    | ok ms0 =>
      simp only [hs] at htm
      cases hf0 : fitAll C trials ms0 x with
      | error e => rw [hf0] at htm; cases htm
      | ok ms1 =>
        simp only [hf0] at htm
        cases hsb : subModels C nm (bestMulti nm kw ms1) with
        | error e => rw [hsb] at htm; cases htm
        | ok msb' =>
          rw [hsb] at htm
          cases htm
          cases hf : fitAll C trials msb x with
          | error e => rw [hf] at h; cases h
          | ok r =>
            rw [hf] at h
            cases h
            obtain ⟨t, ht, hl, hsub⟩ := subModels_ok C nm kw ms0 hs
            obtain ⟨hl1, hfit1⟩ := fitAll_ok C trials ms0 ms1 x hf0
            obtain ⟨t', ht', hlb, hsubb⟩ := subModels_ok C nm _ msb hsb
            obtain ⟨hl2, hfit⟩ := fitAll_ok C trials msb ms x hf
            have : t' = t := by
              have : kw.base.targetName = some t' := ht'
              rw [ht] at this; exact (Option.some.inj this).symm
            subst this
            refine ⟨rfl, rfl, hl2.trans hlb, rfl, t', ht, fun i hz hi => ?_⟩
            obtain ⟨m0, hm0, hsm⟩ := hsub i hz hi
            obtain ⟨m1, hm1, hfo1⟩ := hfit1 i m0 hm0
            obtain ⟨mb, hmb, hsmb⟩ := hsubb i hz hi
            obtain ⟨m, hm, hfo⟩ := hfit i mb hmb
            obtain ⟨a, g1, g2, e1, e2, e3, e4, e5, -, -⟩ := subModel_ok C nm _ t' i hz mb hsmb
            obtain ⟨f1, -, f2⟩ := fitObj_plain C _ mb m x (by rw [e4]; rfl) hfo
            have hval : ∀ (k : N) (v : ℚ), nth (some (ms1.map (fun m => numOf m k))) kw.horizons.length i = .ok v → ∀ q, m1.attrs.pars k = some (.num q) → v = q := by
              intro k v hv q hq
              have := nth_ok _ _ _ _ hv
              simp only [Option.getD_some] at this
              rw [List.getElem?_map, hm1, Option.map_some, Option.some.injEq] at this
              rw [← this]
              unfold numOf
              rw [hq]
            refine ⟨m, m0, m1, hm, hsm, hfo1, ?_, ?_, ?_, ?_, ?_⟩
            · intro k hk q hq
              rw [f1, e4]
              simp only [List.mem_cons, List.not_mem_nil, or_false] at hk
              rcases hk with rfl | rfl | rfl
              · rw [← hval _ a e1 q hq]; simp [normKw, subKw]
              · rw [← hval _ g1 e2 q hq]; simp [normKw, subKw, hnm.a1]
              · rw [← hval _ g2 e3 q hq]; simp [normKw, subKw, hnm.a2, hnm.a4]
            · rw [f1, e4]; simp [normKw, subKw, hnm.a3, hnm.a5, hnm.a6]
            · rw [f1, e4]; rfl
            · rw [f1, e4]; rfl
            · rw [f1, ← e5]; exact f2

/-- C157 (defect): parameters outside the fixed list (such as `constraints`) do not reach the submodels: two combined models that differ only in them end with the same
submodels. -/
theorem C157_dropped_parameters (C : Cls N σ) (nm : Names N) (trials : ℕ → List (List (N × Val))) (kw : MKw N) (x : Frame N) (pars : N → Option Val)
    (hp : ∀ k ∈ nm.copied, pars k = kw.base.pars k) :
    (fitMulti C nm trials (kw.withPars pars) x).map Prod.snd = (fitMulti C nm trials kw x).map Prod.snd := by
  have hsub : ∀ (kw : MKw N) (pars : N → Option Val), (∀ k ∈ nm.copied, pars k = kw.base.pars k) → ∀ (t : N) (h : ℕ) (a g1 g2 : ℚ),
      subKw nm (kw.withPars pars) t h a g1 g2 = subKw nm kw t h a g1 g2 := by
    intro kw pars hp t h a g1 g2
    unfold subKw MKw.withPars
    congr 1
    funext k
    by_cases hk : k ∈ nm.copied
    · simp only [hk, if_true, hp k hk]
    · simp only [hk, if_false]
  have hsm : ∀ (kw : MKw N) (pars : N → Option Val), (∀ k ∈ nm.copied, pars k = kw.base.pars k) →
      subModels C nm (kw.withPars pars) = subModels C nm kw := by
    intro kw pars hp
    have e : ∀ t i h, subModel C nm (kw.withPars pars) t i h = subModel C nm kw t i h := by
      intro t i h
      unfold subModel
      simp only [hsub kw pars hp]
      rfl
    unfold subModels
    simp only [e]
    rfl
  have hb : ∀ ms : List (Obj N σ), subModels C nm (bestMulti nm (kw.withPars pars) ms) = subModels C nm (bestMulti nm kw ms) :=
    fun ms => hsm (bestMulti nm kw ms) pars hp
  have ht : (tuneMulti C nm trials (kw.withPars pars) x).map Prod.snd = (tuneMulti C nm trials kw x).map Prod.snd := by
    unfold tuneMulti
    rw [hsm kw pars hp]
    cases subModels C nm kw with
    | error e => rfl
    | ok ms0 =>
      simp only
      cases fitAll C trials ms0 x with
      | error e => rfl
      | ok ms1 =>
        simp only
        rw [hb ms1]
        cases subModels C nm (bestMulti nm kw ms1) <;> rfl
  unfold fitMulti
  have hoe : (kw.withPars pars).base.optimize = kw.base.optimize := rfl
  rw [hoe]
  by_cases ho : kw.base.optimize = true
  · rw [if_pos ho, if_pos ho]
    revert ht
    cases tuneMulti C nm trials (kw.withPars pars) x with
    | error e =>
      cases tuneMulti C nm trials kw x with
      | error e' => intro ht; cases ht; rfl
      | ok p => intro ht; cases ht
    | ok p =>
      cases tuneMulti C nm trials kw x with
      | error e' => intro ht; cases ht
      | ok p' =>
        obtain ⟨k1, m1⟩ := p
        obtain ⟨k2, m2⟩ := p'
        intro ht
        cases ht
        simp only
        cases fitAll C trials m1 x <;> rfl
  · rw [if_neg ho, if_neg ho, hsm kw pars hp]
    cases subModels C nm kw with
    | error e => rfl
    | ok ms0 =>
      simp only
      cases fitAll C trials ms0 x <;> rfl

end PyF.Tune
