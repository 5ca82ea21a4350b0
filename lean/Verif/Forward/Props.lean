import Verif.Forward.Binding

/-!
C248–C250: which arguments of the constructors are kept, which are lost, which are refused.
-/

namespace PyF.Forward

open PyF

variable {V : Type}

/-- C248. Every parameter of a class or of its bases, given by position or keyword to the class, is kept under its name, with the default of the nearest class that has it; the exceptions
are listed by class. -/
theorem C248_kept (chain : List Cls) (hc : chain ∈ chains) (c : Cls) (hm : c ∈ chain) (p : String) (hp : p ∈ c.params)
    (he : p ∉ exceptions ((chain.map Cls.name).headD "")) : Holds chain (field chain p) p (owner chain p) := by
  have key : ∀ chain ∈ chains, ∀ c ∈ chain, ∀ p ∈ c.params, p ∉ exceptions ((chain.map Cls.name).headD "") → src chain (field chain p) = .arg p (owner chain p) := by
    decide +kernel
  exact holds_of_src (key chain hc c hm p hp he)

/-- C248. The size of the history of the invertible network is kept as its embedding width, its width of the head as a number of layers. -/
theorem C248_inn_names : Holds [causalInvertibleNN, nn, scenarioGenerator] "n_hidden_x" "n_in" "CausalInvertibleNN" ∧
    Holds [causalInvertibleNN, nn, scenarioGenerator] "num_embedding_layers" "n_hidden_y" "CausalInvertibleNN" :=
  ⟨holds_of_src (by decide +kernel), holds_of_src (by decide +kernel)⟩

/-- C249. `LSTM_Forecaster` has these parameters and does nothing with them: the object has the defaults of `ScenarioGenerator`. -/
theorem C249_lstm (p : String) (hp : p ∈ ["logger", "n_scen_fit", "additional_node", "formatter", "conditional_to_hour"]) :
    AlwaysDefault [lstmForecaster, scenarioGenerator] p p "ScenarioGenerator" := by
  have key : ∀ p ∈ ["logger", "n_scen_fit", "additional_node", "formatter", "conditional_to_hour"],
      src [lstmForecaster, scenarioGenerator] p = .dflt p "ScenarioGenerator" := by decide +kernel
  exact alwaysDefault_of_src (key p hp)

/-- C249. The scenario generator of an `LSTM_Forecaster` never adds the extra node. -/
theorem C249_lstm_scengen : AlwaysDefault [lstmForecaster, scenarioGenerator] "scengen.additional_node" "additional_node" "ScenarioGenerator" :=
  alwaysDefault_of_src (by decide +kernel)

/-- C249. A logger given to `LGBMHybrid` or `QRF` is replaced. -/
theorem C249_logger : AlwaysConst [lgbmHybrid, scenarioGenerator] "logger" "get_logger()" ∧ AlwaysConst [qrf, scenarioGenerator] "logger" "get_logger()" :=
  ⟨alwaysConst_of_src (by decide +kernel), alwaysConst_of_src (by decide +kernel)⟩

/-- C249. `n_hidden_y` of the invertible network and `objective_fun` of the latent network are not assigned: the class attributes (200, `None`) are used, whatever is given. -/
theorem C249_networks : NeverSet [causalInvertibleNN, nn, scenarioGenerator] "n_hidden_y" ∧
    NeverSet [latentStructuredPICNN, picnn, nn, scenarioGenerator] "objective_fun" :=
  ⟨neverSet_of_src (by decide +kernel), neverSet_of_src (by decide +kernel)⟩

/-- C249. `constraints` of `HoltWintersMulti` is not assigned, and each expert, whatever values it is built with, is unconstrained, with the default `beta` and validation ratio. -/
theorem C249_holtwinters : NeverSet [holtWintersMulti, scenarioGenerator] "constraints" ∧
    ∀ (W : World V) (v : String → V), ∃ w, expert W v = .ok w ∧
      (∀ p ∈ ["constraints", "beta", "val_ratio"], attr w p = some (W.dflt "HoltWinters" p)) ∧ ∀ p ∈ expertNames, p ≠ "targets_names" → attr w p = some (v p) := by
  refine ⟨neverSet_of_src (by decide +kernel), fun W v => ?_⟩
  have hkeys : ((expertNames.map fun k => (k, v k)).map Prod.fst) = expertNames := by simp [Function.comp_def]
  have hgiven : ∀ p, given holtWinters { pos := [], kw := expertNames.map fun k => (k, v k) } p = if p ∈ expertNames then some (v p) else none := by
    intro p
    simp only [given, List.getElem?_nil, Option.none_or, kwOf]
    induction expertNames with
    | nil => simp
    | cons k l ih =>
      simp only [List.map_cons, List.lookup_cons, List.mem_cons]
      by_cases h : p = k
      · subst h; simp
      · simp [beq_eq_false_iff_ne.mpr h, h, ih]
  have hacc : Accepts holtWinters { pos := [], kw := expertNames.map fun k => (k, v k) } := by
    refine ⟨by simp, ?_, by simp, ?_, ?_⟩
    · rw [hkeys]; decide +kernel
    · intro h; cases h
    · intro p hp
      have : p ∈ expertNames := by
        have key : ∀ p ∈ holtWinters.params.take holtWinters.required, p ∈ expertNames := by decide +kernel
        exact key p hp
      rw [hgiven]; simp [this]
  obtain ⟨w, hw⟩ := (run_ok_iff W holtWinters [scenarioGenerator] { pos := [], kw := expertNames.map fun k => (k, v k) } (by decide +kernel)).mpr
    ⟨hacc, by
      rw [hkeys]
      have : reserved [holtWinters, scenarioGenerator] = [] := by decide +kernel
      simp [this]⟩
  refine ⟨w, hw, ?_, ?_⟩
  · intro p hp
    have key : ∀ p ∈ ["constraints", "beta", "val_ratio"], src [holtWinters, scenarioGenerator] p = .arg p "HoltWinters" ∧ p ∉ expertNames := by decide +kernel
    have h := holds_of_src (key p hp).1 V W _ w hw
    rw [h, asked, hgiven, if_neg (key p hp).2]
    rfl
  · intro p hp hn
    have key : ∀ p ∈ expertNames, p ≠ "targets_names" → src [holtWinters, scenarioGenerator] p = .arg p "HoltWinters" := by decide +kernel
    have h := holds_of_src (key p hp hn) V W _ w hw
    rw [h, asked, hgiven, if_pos hp]
    rfl

/-- C249. What each expert of `HoltWintersMulti` is given and keeps: smoothing factors, periods, horizon, target, levels and the settings of the search. -/
theorem C249_expert_keeps (W : World V) (v : String → V) : ∃ w, expert W v = .ok w ∧
    ∀ p ∈ ["alpha", "gamma_1", "gamma_2", "periods", "n_sa", "target_name", "q_vect", "optimization_budget", "optimize_hyperpars", "verbose"], attr w p = some (v p) := by
  obtain ⟨w, hw, _, h⟩ := C249_holtwinters.2 W v
  refine ⟨w, hw, fun p hp => ?_⟩
  have key : ∀ p ∈ ["alpha", "gamma_1", "gamma_2", "periods", "n_sa", "target_name", "q_vect", "optimization_budget", "optimize_hyperpars", "verbose"],
      p ∈ expertNames ∧ p ≠ "targets_names" := by decide +kernel
  exact h p (key p hp).1 (key p hp).2

/-- C250. A construction is refused by the binding of arguments exactly if the call does not fit the signature of the class, or it has a keyword of the list. -/
theorem C250_refused_iff (W : World V) (c : Cls) (cs : List Cls) (hc : c :: cs ∈ chains) (a : Call V) :
    run W (c :: cs) a = .error .typeError ↔ ¬ Accepts c a ∨ ∃ k ∈ a.kw.map Prod.fst, k ∈ refused c.name := by
  have hwf : ∀ chain ∈ chains, WF chain := by decide +kernel
  have hres : ∀ chain ∈ chains, ∀ k ∈ reserved chain, k ∈ refused ((chain.map Cls.name).headD "") ∨
      ((chain.map Cls.star).headD true = false ∧ k ∉ (chain.map Cls.params).headD []) := by decide +kernel
  have hres' : ∀ chain ∈ chains, ∀ k ∈ refused ((chain.map Cls.name).headD ""), k ∈ reserved chain := by decide +kernel
  have hiff := run_ok_iff W c cs a (hwf _ hc)
  have herr : ∀ (l : List Cls) (a : Call V), (¬ ∃ w, run W l a = .ok w) → run W l a = .error .typeError := by
    intro l
    induction l with
    | nil => intro a h; exact absurd ⟨[], rfl⟩ h
    | cons c l ih =>
      intro a h
      by_cases ha : Accepts c a
      · rw [run, if_pos ha] at h ⊢
        cases hr : run W l (superCall W c a) with
        | error e =>
          have := ih (superCall W c a) (by rw [hr]; simp)
          rw [hr] at this
          exact this
        | ok w => rw [hr] at h; simp at h
      · rw [run, if_neg ha]
  have hgoal : run W (c :: cs) a = .error .typeError ↔ ¬ ∃ w, run W (c :: cs) a = .ok w := by
    constructor
    · intro h; rw [h]; simp
    · exact herr _ _
  rw [hgoal, hiff]
  constructor
  · intro h
    by_cases ha : Accepts c a
    · right
      by_contra hno
      apply h
      refine ⟨ha, fun k hk hr => hno ⟨k, hk, ?_⟩⟩
      rcases hres _ hc k hr with h1 | ⟨h1, h2⟩
      · exact h1
      · exact absurd (ha.2.2.2.1 h1 k hk) h2
    · exact Or.inl ha
  · rintro (h | ⟨k, hk, hr⟩) ⟨h1, h2⟩
    · exact h h1
    · exact h2 k hk (hres' _ hc k hr)

/-- C250. In particular a keyword call with distinct names among which the required ones is accepted by every forecaster and network, unless it has a keyword of the list. -/
theorem C250_keywords_accepted (W : World V) (c : Cls) (cs : List Cls) (hc : c :: cs ∈ chains) (hs : c.star = true) (kw : List (String × V))
    (hn : (kw.map Prod.fst).Nodup) (hreq : ∀ p ∈ c.params.take c.required, p ∈ kw.map Prod.fst) (hk : ∀ k ∈ kw.map Prod.fst, k ∉ refused c.name) :
    ∃ w, run W (c :: cs) { pos := [], kw := kw } = .ok w := by
  have hacc : Accepts c { pos := [], kw := kw } := by
    refine ⟨by simp, hn, by simp, by simp [hs], ?_⟩
    intro p hp
    have := hreq p hp
    simp only [given, List.getElem?_nil, Option.none_or, kwOf]
    rw [List.mem_map] at this
    obtain ⟨x, hx, rfl⟩ := this
    by_contra hno
    rw [Bool.not_eq_true, Option.isSome_eq_false_iff, Option.isNone_iff_eq_none, List.lookup_eq_none_iff] at hno
    have := hno x hx
    simp at this
  cases h : run W (c :: cs) { pos := [], kw := kw } with
  | ok w => exact ⟨w, rfl⟩
  | error e =>
    exfalso
    have hno : ¬ (run W (c :: cs) { pos := [], kw := kw } = .error .typeError) := by
      rw [C250_refused_iff W c cs hc]
      rintro (h1 | ⟨k, hk1, hk2⟩)
      · exact h1 hacc
      · exact hk k hk1 hk2
    have hwf : ∀ chain ∈ chains, WF chain := by decide +kernel
    have hres : ∀ chain ∈ chains, (chain.map Cls.star).headD false = true → ∀ k ∈ reserved chain, k ∈ refused ((chain.map Cls.name).headD "") := by
      decide +kernel
    obtain ⟨w, hw⟩ := (run_ok_iff W c cs _ (hwf _ hc)).mpr ⟨hacc, fun k hk1 hr => hk k hk1 (hres _ hc (by simpa using hs) k hr)⟩
    rw [h] at hw
    cases hw

end PyF.Forward
