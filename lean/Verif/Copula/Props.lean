import Verif.Copula.Lemmas

/-!
C293, C294: are the scenarios drawn for a row distributed as its quantile forecasts say?

The draws of `multivariate_normal(0, cov).rvs` are random variables on a probability space; all that is used of them is the law of each single number,
a normal distribution with the variance on the diagonal of the covariance matrix.
-/

namespace PyF.Copula
open PyF PyF.ScenGen PyF.Recon MeasureTheory ProbabilityTheory Matrix

variable {Ω : Type} [MeasurableSpace Ω]

/-- Draws of the generator: for a valid covariance matrix each number is normal with mean zero and the variance on the diagonal. -/
structure Normals {dim : ℕ} (μ : Measure Ω) (rvs : Ω → Nat → Matrix (Fin dim) (Fin dim) ℝ → Nat → Nat → Nat → Nat → Nat → ℝ) : Prop where
  meas : ∀ c cov k n i j s, AEMeasurable (fun ω => rvs ω c cov k n i j s) μ
  law : ∀ c (cov : Matrix (Fin dim) (Fin dim) ℝ) k n i j (s : Fin dim), cov.PosSemidef → μ.map (fun ω => rvs ω c cov k n i j s) = gaussianReal 0 (cov s s).toNNReal

/-- The event that scenario `k` of row `t` does not exceed `y` at step `s`, the noise added last being disregarded. -/
def below {dim : ℕ} (levels : List ℝ) (quantiles : List (List (List ℝ))) (additional : Bool) (obs : Option (List ℝ)) (pars : Pars (Matrix (Fin dim) (Fin dim) ℝ))
    (rvs : Ω → Nat → Matrix (Fin dim) (Fin dim) ℝ → Nat → Nat → Nat → Nat → Nat → ℝ) (ini : Ω → Nat → Nat → ℝ) (noise : Ω → Nat → Nat → Nat → ℝ) (n : ℕ) (hours : List ℕ) (t s k : ℕ) (y : ℝ) : Set Ω :=
  {ω | ∃ out sc, predictScenarios hours.length levels dim dim levels.length quantiles additional obs (sample Phi pars (rvs ω) dim n hours) (ini ω) (noise ω) = .ok out ∧ out[t]? = some sc ∧
    sc.val (if additional then s + 1 else s) k ≤ y + noise ω t (if additional then s + 1 else s) k}

/-- Row `t` of hour `h`, step `s` and scenario `k` of a call of `predict_scenarios` with quantiles of the right shape for sampled hours; `y` is the quantile of the row and step for the
`j`-th level, which is `Phi z`; levels and quantiles are increasing and the matrix of the hour is valid. -/
structure Situation {dim : ℕ} (levels : List ℝ) (quantiles : List (List (List ℝ))) (obs : Option (List ℝ)) (pars : Pars (Matrix (Fin dim) (Fin dim) ℝ)) (n : ℕ) (hours : List ℕ) (t : ℕ) (s : Fin dim)
    (k : ℕ) (cov : Matrix (Fin dim) (Fin dim) ℝ) (j : ℕ) (z y : ℝ) : Prop where
  several : n ≠ 1
  hours_lt : ∀ h ∈ hours, h < 24
  seen : ∀ h ∈ hours, pars h ≠ none
  shaped : Shaped levels dim quantiles
  rows : quantiles.length = hours.length
  initial : ∀ l, obs = some l → l.length = quantiles.length
  levels_lt : levels.Pairwise (· < ·)
  levels_two : 2 ≤ levels.length
  hour : ∃ h, hours[t]? = some h ∧ pars h = some cov
  valid : cov.PosSemidef
  var_pos : 0 < cov s s
  scenario : k < n
  quantile : ∃ q v, quantiles[t]? = some q ∧ q[s.1]? = some v ∧ v.Pairwise (· < ·) ∧ v[j]? = some y
  level : levels[j]? = some (Phi z)

omit [MeasurableSpace Ω] in
/-- The event in terms of the draw: it does not exceed `z`. -/
theorem below_eq {dim : ℕ} (levels : List ℝ) (quantiles : List (List (List ℝ))) (additional : Bool) (obs : Option (List ℝ))
    (pars : Pars (Matrix (Fin dim) (Fin dim) ℝ)) (rvs : Ω → Nat → Matrix (Fin dim) (Fin dim) ℝ → Nat → Nat → Nat → Nat → Nat → ℝ) (ini : Ω → Nat → Nat → ℝ)
    (noise : Ω → Nat → Nat → Nat → ℝ) (n : ℕ) (hours : List ℕ) (t : ℕ) (s : Fin dim) (k : ℕ) (cov : Matrix (Fin dim) (Fin dim) ℝ) (j : ℕ) (z y : ℝ)
    (hs : Situation levels quantiles obs pars n hours t s k cov j z y) (h : ℕ) (ht : hours[t]? = some h) (hc : pars h = some cov) :
    below levels quantiles additional obs pars rvs ini noise n hours t s k y =
      (fun ω => rvs ω ((uniqueHours hours).idxOf h) cov (hours.count h) n (maskPos hours h t) k s) ⁻¹' Set.Iic z := by
  obtain ⟨hn, hh, hp, hq, hlen, ho, hx, h2, -, hpsd, hv, hk, ⟨q, v, hqt, hqs, hy, hj'⟩, hj⟩ := hs
  have hdim : 1 ≤ dim := by have := s.2; omega
  have hvl : v.length = levels.length := (hq q (List.mem_of_getElem? hqt)).2 v (List.mem_of_getElem? hqs)
  ext ω
  obtain ⟨u, e1, -, e3⟩ := sampleLoop_spec Phi pars (rvs ω) dim n hdim hn hours (uniqueHours hours) 0 (fun _ _ _ => 0) (nodup_uniqueHours hours)
    (fun h h' => (mem_uniqueHours hh h).1 h') (fun h h' => hp h ((mem_uniqueHours hh h).1 h'))
  have hu := e3 t h cov ht ((mem_uniqueHours hh h).2 (List.mem_of_getElem? ht)) hc s k s.2 hk
  rw [Nat.zero_add] at hu
  obtain ⟨out, g1, -, g2⟩ := C54_scenarios levels dim quantiles hq additional obs ho u (ini ω) (noise ω)
  obtain ⟨sc, g3, -, g4⟩ := g2 t q hqt
  obtain ⟨g5, -⟩ := g4 s k v hqs
  have g1' : predictScenarios hours.length levels dim dim levels.length quantiles additional obs (sample Phi pars (rvs ω) dim n hours) (ini ω) (noise ω) = .ok out := by
    rw [← hlen]
    unfold sample
    rw [e1]
    exact g1
  have hiff := interp_le_iff levels v hx hy hvl h2 j (Phi z) y hj hj' (u t s k)
  rw [hu, Phi_strictMono.le_iff_le] at hiff
  unfold below
  simp only [Set.mem_ofPred_eq, Set.mem_preimage, Set.mem_Iic]
  rw [← hiff, ← hu]
  constructor
  · rintro ⟨out', sc', a, b, c⟩
    rw [g1'] at a
    cases a
    rw [g3] at b
    cases b
    rw [g5] at c
    linarith
  · intro hle
    exact ⟨out, sc, g1', g3, by rw [g5]; linarith⟩

/-- C293: the probability that a scenario does not exceed the quantile of level `Phi z` forecast for the row and step is `Phi (z / sqrt v)`, where `v` is the diagonal entry of
the matrix of the hour of the row. -/
theorem C293_calibration {dim : ℕ} (μ : Measure Ω) [IsProbabilityMeasure μ] (levels : List ℝ) (quantiles : List (List (List ℝ))) (additional : Bool) (obs : Option (List ℝ))
    (pars : Pars (Matrix (Fin dim) (Fin dim) ℝ)) (rvs : Ω → Nat → Matrix (Fin dim) (Fin dim) ℝ → Nat → Nat → Nat → Nat → Nat → ℝ) (hr : Normals μ rvs) (ini : Ω → Nat → Nat → ℝ)
    (noise : Ω → Nat → Nat → Nat → ℝ) (n : ℕ) (hours : List ℕ) (t : ℕ) (s : Fin dim) (k : ℕ) (cov : Matrix (Fin dim) (Fin dim) ℝ) (j : ℕ) (z y : ℝ)
    (hs : Situation levels quantiles obs pars n hours t s k cov j z y) :
    μ.real (below levels quantiles additional obs pars rvs ini noise n hours t s k y) = Phi (z / Real.sqrt (cov s s)) := by
  obtain ⟨h, ht, hc⟩ := hs.hour
  have hev := below_eq levels quantiles additional obs pars rvs ini noise n hours t s k cov j z y hs h ht hc
  have hpsd := hs.valid
  have hv := hs.var_pos
  rw [hev, ← gaussian_Iic _ hv, ← hr.law _ cov _ n _ k s hpsd, map_measureReal_apply_of_aemeasurable (hr.meas _ _ _ _ _ _ _) measurableSet_Iic]

/-- C293: with ones on the diagonal the scenarios fall below the quantile of a level with the probability this level says. -/
theorem C293_calibrated {dim : ℕ} (μ : Measure Ω) [IsProbabilityMeasure μ] (levels : List ℝ) (quantiles : List (List (List ℝ))) (additional : Bool) (obs : Option (List ℝ))
    (pars : Pars (Matrix (Fin dim) (Fin dim) ℝ)) (rvs : Ω → Nat → Matrix (Fin dim) (Fin dim) ℝ → Nat → Nat → Nat → Nat → Nat → ℝ) (hr : Normals μ rvs) (ini : Ω → Nat → Nat → ℝ)
    (noise : Ω → Nat → Nat → Nat → ℝ) (n : ℕ) (hours : List ℕ) (t : ℕ) (s : Fin dim) (k : ℕ) (cov : Matrix (Fin dim) (Fin dim) ℝ) (j : ℕ) (z y : ℝ)
    (hs : Situation levels quantiles obs pars n hours t s k cov j z y) (hc : cov s s = 1) :
    levels[j]? = some (μ.real (below levels quantiles additional obs pars rvs ini noise n hours t s k y)) := by
  rw [C293_calibration μ levels quantiles additional obs pars rvs hr ini noise n hours t s k cov j z y hs, hc, Real.sqrt_one, div_one]
  exact hs.level

end PyF.Copula
