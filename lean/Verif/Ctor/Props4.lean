import Verif.Ctor.Props

/-!
C158, continued: when the construction of `Fourier_es` and `FK` succeeds, and what the object then holds.
-/

namespace PyF.Ctor

open PyF

/-- The documented defaults. -/
def documented : Pred → String → Val
  | _, "target_name" => .str "target"
  | _, "n_sa" => .num 1
  | _, "m" => .num 24
  | _, "val_ratio" => .num (4 / 5)
  | _, "optimize_hyperpars" => .bool true
  | _, "optimization_budget" => .num 100
  | .fourier, "verbose" => .bool false
  | .fk, "verbose" => .bool true
  | _, "alpha" => .num (4 / 5)
  | _, "omega" => .num (99 / 100)
  | _, "n_harmonics" => .num 3
  | .fk, "r" => .num (1 / 10)
  | .fk, "q" => .num (1 / 10)
  | _, _ => .null

/-- The value of a parameter: given, or the documented default. -/
def value (p : Pred) (d : Dict) (k : String) : Val := (d k).getD (documented p k)

/-- Parameters kept unchanged as attributes. -/
def plain : Pred → List String
  | .fourier => ["target_name", "n_sa", "m", "val_ratio", "optimize_hyperpars", "optimization_budget", "verbose", "q_vect", "alpha", "omega", "n_harmonics"]
  | .fk => ["target_name", "n_sa", "m", "val_ratio", "optimize_hyperpars", "optimization_budget", "verbose", "q_vect", "alpha", "omega", "n_harmonics", "r", "q"]

theorem openUnit_iff (v : Val) (u : Unit) : openUnit (some v) = .ok u ↔ ∃ a : ℚ, v = .num a ∧ 0 < a ∧ a < 1 := by
  cases v <;> simp [openUnit]

theorem positive_iff (v : Val) (u : Unit) : positive (some v) = .ok u ↔ ∃ a : ℚ, v = .num a ∧ 0 < a := by
  cases v <;> simp [positive]

theorem scenGen_ok_iff (d : Dict) : (∃ sg, scenGen d = .ok sg) ↔
    (∃ c ∈ ["HourlyGaussianCopula", "ConditionalGaussianCopula"], (d "copula_type").getD (.str "HourlyGaussianCopula") = .str c) ∧
      ∃ t ∈ ["DiffTree", "NeuralGas", "ScenredTree", "QuantileTree"], (d "tree_type").getD (.str "ScenredTree") = .str t := by
  have hc : ∀ c, (∃ l, copulaSig c = some l) ↔ c ∈ ["HourlyGaussianCopula", "ConditionalGaussianCopula"] := by
    intro c
    unfold copulaSig
    by_cases h1 : c = "HourlyGaussianCopula" <;> by_cases h2 : c = "ConditionalGaussianCopula" <;> simp [h1, h2]
  have ht : ∀ t, (∃ l, treeSig t = some l) ↔ t ∈ ["DiffTree", "NeuralGas", "ScenredTree", "QuantileTree"] := by
    intro t
    unfold treeSig
    by_cases h1 : t = "DiffTree" <;> by_cases h2 : t = "NeuralGas" <;> by_cases h3 : t = "ScenredTree" ∨ t = "QuantileTree" <;> simp [h1, h2, h3]
  constructor
  · rintro ⟨sg, h⟩
    obtain ⟨c, t, cs, ts, e1, e2, e3, e4, -⟩ := scenGen_ok d sg h
    exact ⟨⟨c, (hc c).mp ⟨cs, e3⟩, e1⟩, ⟨t, (ht t).mp ⟨ts, e4⟩, e2⟩⟩
  · rintro ⟨⟨c, hcm, e1⟩, t, htm, e2⟩
    obtain ⟨cs, e3⟩ := (hc c).mpr hcm
    obtain ⟨ts, e4⟩ := (ht t).mpr htm
    unfold scenGen
    simp [e1, e2, e3, e4]

theorem default_eq (p : Pred) (k : String) (hk : k ∈ p.names) : p.default k = documented p k := by
  cases p
  · have : ∀ k ∈ Pred.fourier.names, Pred.fourier.default k = documented .fourier k := by decide +kernel
    exact this k hk
  · have : ∀ k ∈ Pred.fk.names, Pred.fk.default k = documented .fk k := by decide +kernel
    exact this k hk

theorem withDefaults_value (p : Pred) (d : Dict) (k : String) (hk : k ∈ p.names) : d.withDefaults p.names p.default k = some (value p d k) := by
  unfold Dict.withDefaults value
  rw [if_pos hk, default_eq p k hk]

/-- What the base constructor is called with. -/
theorem base_call (p : Pred) (d : Dict) (k : String) :
    ((d.rest p.names).update ((d.withDefaults p.names p.default).named statefulNames)) k =
      if k ∈ statefulNames then some (value p d k) else if k ∈ p.names then none else d k := by
  unfold Dict.update Dict.named Dict.rest
  by_cases h1 : k ∈ statefulNames
  · have h2 : k ∈ p.names := List.mem_append_left _ h1
    rw [if_pos h1, if_pos h1, withDefaults_value p d k h2]
    simp
  · simp [h1]

/-- `stateful` of a dictionary in which the named parameters are given. -/
theorem stateful_ok_iff (d : Dict) (v : String → Val) (hv : ∀ k ∈ statefulNames, d k = some (v k)) :
    (∃ o, stateful d = .ok o) ↔ (∃ m : ℚ, v "m" = .num m ∧ 0 < m) ∧ (d "max_scengen_rows" = none ∧ d "scengen_random_state" = none) ∧
      (∃ c ∈ ["HourlyGaussianCopula", "ConditionalGaussianCopula"], (d "copula_type").getD (.str "HourlyGaussianCopula") = .str c) ∧
      ∃ t ∈ ["DiffTree", "NeuralGas", "ScenredTree", "QuantileTree"], (d "tree_type").getD (.str "ScenredTree") = .str t := by
  have hm : d.withDefaults statefulNames statefulDefault "m" = some (v "m") := by
    unfold Dict.withDefaults
    rw [if_pos (by decide +kernel), hv "m" (by decide +kernel)]
    rfl
  have hrej : (rejected.any fun k => (d.rest statefulNames k).isSome) = true ↔ ¬ (d "max_scengen_rows" = none ∧ d "scengen_random_state" = none) := by
    have h1 : "max_scengen_rows" ∉ statefulNames := by decide +kernel
    have h2 : "scengen_random_state" ∉ statefulNames := by decide +kernel
    simp only [rejected, List.any_cons, List.any_nil, Bool.or_false, Bool.or_eq_true, Dict.rest, if_neg h1, if_neg h2, Option.isSome_iff_ne_none]
    tauto
  have hsg : (∃ g, scenarioGenerator ((d.rest statefulNames).update ((d.withDefaults statefulNames statefulDefault).named ["q_vect", "nodes_at_step", "val_ratio"])) = .ok g) ↔
      (∃ c ∈ ["HourlyGaussianCopula", "ConditionalGaussianCopula"], (d "copula_type").getD (.str "HourlyGaussianCopula") = .str c) ∧
      ∃ t ∈ ["DiffTree", "NeuralGas", "ScenredTree", "QuantileTree"], (d "tree_type").getD (.str "ScenredTree") = .str t := by
    have hk : ∀ k, k = "copula_type" ∨ k = "tree_type" →
        (((d.rest statefulNames).update ((d.withDefaults statefulNames statefulDefault).named ["q_vect", "nodes_at_step", "val_ratio"])).rest scenarioGeneratorNames).update
          (((d.rest statefulNames).update ((d.withDefaults statefulNames statefulDefault).named ["q_vect", "nodes_at_step", "val_ratio"])).named
            ["q_vect", "nodes_at_step", "additional_node"]) k = d k := by
      rintro k (rfl | rfl) <;> simp [Dict.update, Dict.rest, Dict.named, statefulNames, scenarioGeneratorNames]
    rw [← hk "copula_type" (Or.inl rfl), ← hk "tree_type" (Or.inr rfl), ← scenGen_ok_iff]
    unfold scenarioGenerator
    constructor
    · rintro ⟨g, h⟩
      split at h
      · cases h
      · next sg hs => exact ⟨sg, hs⟩
    · rintro ⟨sg, h⟩
      rw [h]
      exact ⟨_, rfl⟩
  rw [← hsg]
  unfold stateful
  simp only [hm]
  cases hvm : v "m" with
  | num m =>
    simp only [Val.num.injEq, exists_eq_left']
    by_cases h0 : m ≤ 0
    · simp [h0, not_lt.mpr h0]
    · rw [if_neg h0]
      by_cases hr : (rejected.any fun k => (d.rest statefulNames k).isSome) = true
      · rw [if_pos hr]
        simp only [reduceCtorEq, exists_false, false_iff]
        rintro ⟨-, h, -⟩
        exact hrej.mp hr h
      · rw [if_neg hr]
        have hr' : d "max_scengen_rows" = none ∧ d "scengen_random_state" = none := by
          by_contra hc; exact hr (hrej.mpr hc)
        constructor
        · rintro ⟨o, h⟩
          refine ⟨not_le.mp h0, hr', ?_⟩
          split at h
          · cases h
          · next g hg => exact ⟨g, hg⟩
        · rintro ⟨-, -, g, hg⟩
          rw [hg]
          exact ⟨_, rfl⟩
  | _ => simp

/-- C158 (accepted): the construction succeeds exactly if alpha and omega lie strictly between 0 and 1, the window and the number of harmonics are positive, the keywords that cap rows are not
given, and the copula and the tree are known. -/
theorem C158_built_iff (p : Pred) (d : Dict) : (∃ o, p.build d = .ok o) ↔
    (∃ a : ℚ, value p d "alpha" = .num a ∧ 0 < a ∧ a < 1) ∧ (∃ a : ℚ, value p d "omega" = .num a ∧ 0 < a ∧ a < 1) ∧ (∃ a : ℚ, value p d "n_harmonics" = .num a ∧ 0 < a) ∧
    (∃ m : ℚ, value p d "m" = .num m ∧ 0 < m) ∧ (d "max_scengen_rows" = none ∧ d "scengen_random_state" = none) ∧
    (∃ c ∈ ["HourlyGaussianCopula", "ConditionalGaussianCopula"], (d "copula_type").getD (.str "HourlyGaussianCopula") = .str c) ∧
    ∃ t ∈ ["DiffTree", "NeuralGas", "ScenredTree", "QuantileTree"], (d "tree_type").getD (.str "ScenredTree") = .str t := by
  have hb := stateful_ok_iff ((d.rest p.names).update ((d.withDefaults p.names p.default).named statefulNames)) (value p d)
    (fun k hk => by rw [base_call, if_pos hk])
  have hd : ∀ k ∈ ["max_scengen_rows", "scengen_random_state", "copula_type", "tree_type"],
      ((d.rest p.names).update ((d.withDefaults p.names p.default).named statefulNames)) k = d k := by
    intro k hk
    have h1 : ∀ k ∈ ["max_scengen_rows", "scengen_random_state", "copula_type", "tree_type"], k ∉ statefulNames ∧ k ∉ Pred.fourier.names ∧ k ∉ Pred.fk.names := by decide +kernel
    obtain ⟨e1, e2, e3⟩ := h1 k hk
    rw [base_call, if_neg e1, if_neg (by cases p <;> assumption)]
  rw [hd _ (by simp), hd _ (by simp), hd _ (by simp), hd _ (by simp)] at hb
  rw [← hb]
  have hn : ∀ k ∈ ["alpha", "omega", "n_harmonics"], k ∈ p.names := by cases p <;> decide +kernel
  unfold Pred.build
  simp only [withDefaults_value p d _ (hn "alpha" (by simp)), withDefaults_value p d _ (hn "omega" (by simp)), withDefaults_value p d _ (hn "n_harmonics" (by simp))]
  rw [← openUnit_iff (value p d "alpha") (), ← openUnit_iff (value p d "omega") (), ← positive_iff (value p d "n_harmonics") ()]
  cases openUnit (some (value p d "alpha")) with
  | error e => simp
  | ok u =>
    cases openUnit (some (value p d "omega")) with
    | error e => simp
    | ok u =>
      cases positive (some (value p d "n_harmonics")) with
      | error e => simp
      | ok u =>
        simp only [true_and]
        cases stateful ((d.rest p.names).update ((d.withDefaults p.names p.default).named statefulNames)) <;> simp

/-- C158 (attributes): the object then holds the values given, or the documented defaults; without a period the horizon is used, without names of targets the target. -/
theorem C158_attributes (p : Pred) (d : Dict) (o : Obj) (h : p.build d = .ok o) :
    (∀ k ∈ plain p, o.attrs k = some (value p d k)) ∧
      o.attrs "periodicity" = some (if value p d "periodicity" = .null then value p d "n_sa" else value p d "periodicity") ∧
      (∀ s, value p d "target_name" = .str s → value p d "targets_names" = .null → o.attrs "targets_names" = some (.strs [s])) ∧
      (∀ l, value p d "targets_names" = .strs l → o.attrs "targets_names" = some (.strs l)) := by
  unfold Pred.build at h
  simp only at h
  split at h
  · cases hs : stateful ((d.rest p.names).update ((d.withDefaults p.names p.default).named statefulNames)) with
    | error e => rw [hs] at h; cases h
    | ok o' =>
      rw [hs] at h
      have ho := Except.ok.inj h
      have hst : ∀ k ∈ statefulNames, ((d.rest p.names).update ((d.withDefaults p.names p.default).named statefulNames)).withDefaults statefulNames statefulDefault k = some (value p d k) := by
        intro k hk
        have e := base_call p d k
        rw [if_pos hk] at e
        generalize (d.rest p.names).update ((d.withDefaults p.names p.default).named statefulNames) = D at e ⊢
        unfold Dict.withDefaults
        rw [if_pos hk, e]
        rfl
      have hattrs : ∀ k, o'.attrs k = if k = "nodes_at_step" then none else if k = "targets_names" then
          some (targetsOf (value p d "target_name") (value p d "targets_names")) else
            ((d.rest p.names).update ((d.withDefaults p.names p.default).named statefulNames)).withDefaults statefulNames statefulDefault k := by
        intro k
        unfold stateful at hs
        simp only [hst "target_name" (by decide +kernel), hst "targets_names" (by decide +kernel)] at hs
        split at hs
        · split at hs
          · cases hs
          · split at hs
            · cases hs
            · split at hs
              · cases hs
              · have := Except.ok.inj hs
                rw [← this]
                rfl
        · cases hs
      have hper : "periodicity" ∈ p.names ∧ "n_sa" ∈ p.names := by cases p <;> decide +kernel
      rw [← ho]
      refine ⟨?_, ?_, ?_, ?_⟩
      · intro k hk
        have hk' : k ≠ "periodicity" ∧ k ≠ "nodes_at_step" ∧ k ≠ "targets_names" ∧ k ∈ p.names ∧ (k ∉ p.own → k ∈ statefulNames) := by
          cases p
          · have : ∀ k ∈ plain .fourier, k ≠ "periodicity" ∧ k ≠ "nodes_at_step" ∧ k ≠ "targets_names" ∧ k ∈ Pred.fourier.names ∧ (k ∉ Pred.fourier.own → k ∈ statefulNames) := by
              decide +kernel
            exact this k hk
          · have : ∀ k ∈ plain .fk, k ≠ "periodicity" ∧ k ≠ "nodes_at_step" ∧ k ≠ "targets_names" ∧ k ∈ Pred.fk.names ∧ (k ∉ Pred.fk.own → k ∈ statefulNames) := by
              decide +kernel
            exact this k hk
        obtain ⟨e1, e2, e3, e4, e5⟩ := hk'
        simp only [if_neg e1]
        by_cases ho : k ∈ p.own
        · rw [if_pos ho, withDefaults_value p d k e4]
        · rw [if_neg ho, hattrs, if_neg e2, if_neg e3, hst k (e5 ho)]
      · simp only [if_true, withDefaults_value p d _ hper.1, withDefaults_value p d _ hper.2, Option.some.injEq]
        split <;> rfl
      all_goals
        have hto : "targets_names" ∉ p.own := by cases p <;> decide +kernel
        simp only [if_neg (show "targets_names" ≠ "periodicity" by decide), if_neg hto, hattrs, if_neg (show "targets_names" ≠ "nodes_at_step" by decide), if_true]
      · intro s h1 h2
        rw [h1, h2]; rfl
      · intro l hl
        rw [hl]; rfl
  · cases h
  · cases h
  · cases h

/-- C159 (numbers): a non-negative number is cut to the whole number below, any other value is refused. -/
theorem C159_whole (v : Val) (n : ℕ) (h : natOf (some v) = some n) : ∃ q : ℚ, v = .num q ∧ (0 ≤ q → (n : ℚ) ≤ q ∧ q < n + 1) := by
  cases v with
  | num q =>
    refine ⟨q, rfl, fun hq => ?_⟩
    have hn : n = ⌊q⌋.toNat := (Option.some.inj h).symm
    have h0 : 0 ≤ ⌊q⌋ := Int.floor_nonneg.mpr hq
    have hc : ((n : ℕ) : ℚ) = ((⌊q⌋ : ℤ) : ℚ) := by
      rw [hn, ← Int.cast_natCast, Int.toNat_of_nonneg h0]
    rw [hc]
    exact ⟨Int.floor_le q, Int.lt_floor_add_one q⟩
  | _ => cases h

end PyF.Ctor
