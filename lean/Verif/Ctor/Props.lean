import Verif.Ctor.Spec
import Verif.Hybrid.Lemmas

namespace PyF.Ctor

open PyF

/-! ### C158: where a keyword ends up -/

theorem named_congr (d d' : Dict) (l : List String) (h : ∀ k ∈ l, d k = d' k) : d.named l = d'.named l := by
  funext k
  unfold Dict.named
  split
  · next hk => exact h k hk
  · rfl

theorem copulaSig_sub (s : String) (l : List String) (h : copulaSig s = some l) : ∀ k ∈ l, k ∈ ["cov_est_method", "conditional_on", "logger"] := by
  unfold copulaSig at h
  split at h
  · cases h; intro k hk; simp only [List.mem_cons, List.not_mem_nil, or_false] at hk ⊢; tauto
  · split at h
    · cases h; intro k hk; exact hk
    · cases h

theorem treeSig_sub (s : String) (l : List String) (h : treeSig s = some l) : ∀ k ∈ l, k ∈ ["tree", "nodes_at_step", "savepath", "init", "base_tree", "learning_rate"] := by
  unfold treeSig at h
  split at h
  · cases h; intro k hk; exact hk
  · split at h
    · cases h; intro k hk; simp only [List.mem_cons, List.not_mem_nil, or_false] at hk ⊢; tauto
    · split at h
      · cases h; intro k hk; simp only [List.mem_cons, List.not_mem_nil, or_false] at hk ⊢; tauto
      · cases h

/-- The names from `ScenGen` on. -/
def genNames : List String :=
  scenGenNames ++ ["cov_est_method", "conditional_on", "logger", "tree", "nodes_at_step", "savepath", "init", "base_tree", "learning_rate"]

theorem scenGen_congr (d d' : Dict) (h : ∀ k ∈ genNames, d k = d' k) : scenGen d = scenGen d' := by
  have hn : d.named scenGenNames = d'.named scenGenNames := named_congr _ _ _ (fun k hk => h k (List.mem_append_left _ hk))
  have hr : ∀ k, k ∈ genNames → d.rest scenGenNames k = d'.rest scenGenNames k := by
    intro k hk
    unfold Dict.rest
    rw [h k hk]
  unfold scenGen
  rw [h "copula_type" (by simp [genNames, scenGenNames]), h "tree_type" (by simp [genNames, scenGenNames]), hn]
  split
  · next c t _ _ =>
    cases hc : copulaSig c with
    | none => rfl
    | some cs =>
      simp only
      cases ht : treeSig t with
      | none => rfl
      | some ts =>
        simp only
        rw [named_congr _ _ cs (fun k hk => hr k ?_), named_congr _ _ ts (fun k hk => hr k ?_)]
        · have := treeSig_sub t ts ht k hk
          unfold genNames
          simp only [List.mem_cons, List.not_mem_nil, or_false, List.mem_append] at this ⊢
          tauto
        · have := copulaSig_sub c cs hc k hk
          unfold genNames
          simp only [List.mem_cons, List.not_mem_nil, or_false, List.mem_append] at this ⊢
          tauto
  · rfl

theorem scenarioGenerator_congr (d d' : Dict) (h : ∀ k ∈ scenarioGeneratorNames ++ genNames, d k = d' k) : scenarioGenerator d = scenarioGenerator d' := by
  have hn : d.named scenarioGeneratorNames = d'.named scenarioGeneratorNames := named_congr _ _ _ (fun k hk => h k (List.mem_append_left _ hk))
  unfold scenarioGenerator
  rw [hn, scenGen_congr _ ((d'.rest scenarioGeneratorNames).update (d'.named ["q_vect", "nodes_at_step", "additional_node"]))]
  intro k hk
  unfold Dict.update Dict.rest Dict.named
  rw [h k (List.mem_append_right _ hk)]

theorem stateful_congr (d d' : Dict) (h : ∀ k ∈ statefulNames ++ scenarioGeneratorNames ++ genNames, d k = d' k) : SameE (stateful d) (stateful d') := by
  have hv : d.withDefaults statefulNames statefulDefault = d'.withDefaults statefulNames statefulDefault := by
    funext k
    unfold Dict.withDefaults
    split
    · next hk => rw [h k (List.mem_append_left _ (List.mem_append_left _ hk))]
    · rfl
  have hr : ∀ k ∈ scenarioGeneratorNames ++ genNames, d.rest statefulNames k = d'.rest statefulNames k := by
    intro k hk
    unfold Dict.rest
    rw [h k (by rw [List.append_assoc]; exact List.mem_append_right _ hk)]
  have hrej : rejected.any (fun k => (d.rest statefulNames k).isSome) = rejected.any (fun k => (d'.rest statefulNames k).isSome) := by
    unfold rejected
    simp only [List.any_cons, List.any_nil]
    rw [hr "max_scengen_rows" (by simp [scenarioGeneratorNames]), hr "scengen_random_state" (by simp [scenarioGeneratorNames])]
  have hg : scenarioGenerator ((d.rest statefulNames).update ((d'.withDefaults statefulNames statefulDefault).named ["q_vect", "nodes_at_step", "val_ratio"])) =
      scenarioGenerator ((d'.rest statefulNames).update ((d'.withDefaults statefulNames statefulDefault).named ["q_vect", "nodes_at_step", "val_ratio"])) := by
    apply scenarioGenerator_congr
    intro k hk
    unfold Dict.update
    rw [hr k hk]
  unfold stateful
  rw [hv]
  simp only
  split
  · rw [hrej]
    split
    · rfl
    · split
      · rfl
      · rw [hg]
        cases scenarioGenerator ((d'.rest statefulNames).update ((d'.withDefaults statefulNames statefulDefault).named ["q_vect", "nodes_at_step", "val_ratio"])) with
        | error e => rfl
        | ok g => exact ⟨rfl, rfl⟩
  · rfl

theorem sameE_iff (a b : Except PyErr Obj) (h : SameE a b) : (∃ e, a = .error e ∧ b = .error e) ∨ ∃ x y, a = .ok x ∧ b = .ok y ∧ x.attrs = y.attrs ∧ x.gen = y.gen := by
  cases a with
  | error e =>
    cases b with
    | error f => exact Or.inl ⟨e, rfl, by rw [show e = f from h]⟩
    | ok y => exact h.elim
  | ok x =>
    cases b with
    | error f => exact h.elim
    | ok y => exact Or.inr ⟨x, y, rfl, rfl, h.1, h.2⟩

theorem build_congr (p : Pred) (d d' : Dict) (h : ∀ k ∈ known p, d k = d' k) : SameE (p.build d) (p.build d') := by
  have hv : d.withDefaults p.names p.default = d'.withDefaults p.names p.default := by
    funext k
    unfold Dict.withDefaults
    split
    · next hk => rw [h k (by unfold known; simp only [List.mem_append]; tauto)]
    · rfl
  have hs := stateful_congr ((d.rest p.names).update ((d'.withDefaults p.names p.default).named statefulNames))
    ((d'.rest p.names).update ((d'.withDefaults p.names p.default).named statefulNames)) (by
      intro k hk
      unfold Dict.update
      have : d.rest p.names k = d'.rest p.names k := by
        unfold Dict.rest
        split
        · rfl
        · refine h k ?_
          unfold known Pred.names genNames at *
          simp only [List.mem_append] at hk ⊢
          tauto
      rw [this])
  unfold Pred.build
  rw [hv]
  simp only
  split
  · rcases sameE_iff _ _ hs with ⟨e, h1, h2⟩ | ⟨x, y, h1, h2, h3, h4⟩
    · rw [h1, h2]; rfl
    · rw [h1, h2]
      refine ⟨?_, h4⟩
      funext k
      simp only [h3]
  · rfl
  · rfl
  · rfl

theorem build_init (p : Pred) (d : Dict) (o : Obj) (k : String) (hk : k ∉ p.names) (h : p.build d = .ok o) : o.init k = d k := by
  unfold Pred.build at h
  simp only at h
  split at h
  · cases hs : stateful ((d.rest p.names).update ((d.withDefaults p.names p.default).named statefulNames)) with
    | error e => rw [hs] at h; cases h
    | ok o' =>
      rw [hs] at h
      cases h
      have hk1 : k ∉ statefulNames := fun hc => hk (List.mem_append_left _ hc)
      have hk2 : k ∉ p.own := fun hc => hk (List.mem_append_right _ hc)
      have e : o'.init k = d k := by
        unfold stateful at hs
        simp only at hs
        split at hs
        · split at hs
          · cases hs
          · split at hs
            · cases hs
            · split at hs
              · cases hs
              · cases hs
                have hts : k ≠ "targets_names" := by intro hc; apply hk1; rw [hc]; simp [statefulNames]
                simp only [Dict.update, Dict.rest, Dict.named, Dict.set, Dict.withDefaults, hk, hk1, hts, if_false, Option.none_or, Option.or_none]
        · cases hs
      simp only [Dict.update, Dict.named, hk2, if_false, Option.none_or]
      exact e
  · cases h
  · cases h
  · cases h

/-- C158 (defect): a keyword that no class knows, such as a misspelled one, is accepted: the outcome is the same as without it, except that it is kept in `init_pars`. -/
theorem C158_unknown_keyword (p : Pred) (d : Dict) (k : String) (v : Val) (hk : k ∉ known p) :
    SameE (p.build (d.set k v)) (p.build d) ∧ ∀ o, p.build (d.set k v) = .ok o → o.init k = some v := by
  constructor
  · refine build_congr p _ _ (fun j hj => ?_)
    unfold Dict.set
    rw [if_neg]
    intro hc
    rw [hc] at hj
    exact hk hj
  · intro o ho
    rw [build_init p _ o k (fun hc => hk (by unfold known; simp only [List.mem_append]; tauto)) ho]
    simp [Dict.set]

/-- The generator of a built object. -/
theorem build_gen (p : Pred) (d : Dict) (o : Obj) (h : p.build d = .ok o) : ∃ d1 d2 d3 : Dict,
    d1 = (d.rest p.names).update ((d.withDefaults p.names p.default).named statefulNames) ∧
    d2 = (d1.rest statefulNames).update ((d1.withDefaults statefulNames statefulDefault).named ["q_vect", "nodes_at_step", "val_ratio"]) ∧
    d3 = (d2.rest scenarioGeneratorNames).update (d2.named ["q_vect", "nodes_at_step", "additional_node"]) ∧
    scenGen d3 = .ok o.gen.sg ∧ o.gen.own = d2.named scenarioGeneratorNames := by
  refine ⟨_, _, _, rfl, rfl, rfl, ?_⟩
  unfold Pred.build at h
  simp only at h
  split at h
  · cases hs : stateful ((d.rest p.names).update ((d.withDefaults p.names p.default).named statefulNames)) with
    | error e => rw [hs] at h; cases h
    | ok o' =>
      rw [hs] at h
      cases h
      unfold stateful at hs
      simp only at hs
      split at hs
      · split at hs
        · cases hs
        · split at hs
          · cases hs
          · split at hs
            · cases hs
            · next g hg =>
              cases hs
              unfold scenarioGenerator at hg
              split at hg
              · cases hg
              · next sg hsg => cases hg; exact ⟨hsg, rfl⟩
      · cases hs
  · cases h
  · cases h
  · cases h

/-- Names that some class takes before the copula and the tree see the keywords. -/
def shadow (p : Pred) : List String := p.names ++ scenarioGeneratorNames ++ scenGenNames

theorem d3_unshadowed (p : Pred) (d d1 d2 d3 : Dict) (h1 : d1 = (d.rest p.names).update ((d.withDefaults p.names p.default).named statefulNames))
    (h2 : d2 = (d1.rest statefulNames).update ((d1.withDefaults statefulNames statefulDefault).named ["q_vect", "nodes_at_step", "val_ratio"]))
    (h3 : d3 = (d2.rest scenarioGeneratorNames).update (d2.named ["q_vect", "nodes_at_step", "additional_node"])) (k : String) :
    (k ∉ p.names → k ∉ scenarioGeneratorNames → d3 k = d k) ∧ ((k ∈ p.names ∨ k ∈ scenarioGeneratorNames) → k ∉ ["q_vect", "nodes_at_step", "additional_node"] → d3 k = none) := by
  constructor
  · intro hp hs
    have hst : k ∉ statefulNames := fun hc => hp (List.mem_append_left _ hc)
    have hq : k ∉ ["q_vect", "nodes_at_step", "additional_node"] := by
      intro hc; apply hs; simp only [List.mem_cons, List.not_mem_nil, or_false] at hc; unfold scenarioGeneratorNames; simp only [List.mem_cons]; tauto
    have hq2 : k ∉ ["q_vect", "nodes_at_step", "val_ratio"] := by
      intro hc; apply hs; simp only [List.mem_cons, List.not_mem_nil, or_false] at hc; unfold scenarioGeneratorNames; simp only [List.mem_cons]; tauto
    rw [h3, h2, h1]
    simp only [Dict.update, Dict.rest, Dict.named, hp, hs, hst, hq, hq2, if_false, Option.none_or]
  · intro hor hq
    rw [h3]
    by_cases hs : k ∈ scenarioGeneratorNames
    · simp only [Dict.update, Dict.rest, Dict.named, hs, hq, if_false, if_true, Option.none_or]
    · have hp : k ∈ p.names := by tauto
      have hq2 : k ∉ ["q_vect", "nodes_at_step", "val_ratio"] := by
        intro hc; apply hs; simp only [List.mem_cons, List.not_mem_nil, or_false] at hc; unfold scenarioGeneratorNames; simp only [List.mem_cons]; tauto
      rw [h2, h1]
      by_cases hst : k ∈ statefulNames
      · simp only [Dict.update, Dict.rest, Dict.named, hs, hq, hq2, hst, if_false, if_true, Option.none_or]
      · simp only [Dict.update, Dict.rest, Dict.named, hs, hq, hq2, hst, hp, if_false, if_true, Option.none_or]

theorem scenGen_ok (d : Dict) (sg : SG) (h : scenGen d = .ok sg) : ∃ c t cs ts, (d "copula_type").getD (.str "HourlyGaussianCopula") = .str c ∧ (d "tree_type").getD (.str "ScenredTree") = .str t ∧
    copulaSig c = some cs ∧ treeSig t = some ts ∧ sg = ⟨d.named scenGenNames, (d.rest scenGenNames).named cs, (d.rest scenGenNames).named ts⟩ := by
  unfold scenGen at h
  split at h
  · next c t h1 h2 =>
    split at h
    · cases h
    · next cs hcs =>
      split at h
      · cases h
      · next ts hts => cases h; exact ⟨c, t, cs, ts, h1, h2, hcs, hts, rfl⟩
  · cases h

/-- C158: a keyword reaches the copula (or the tree) iff it is a parameter of the chosen copula (tree) class and no class in between has a parameter of that name. -/
theorem C158_copula_and_tree (p : Pred) (d : Dict) (o : Obj) (h : p.build d = .ok o) :
    ∃ c t cs ts, (d "copula_type").getD (.str "HourlyGaussianCopula") = .str c ∧ (d "tree_type").getD (.str "ScenredTree") = .str t ∧ copulaSig c = some cs ∧ treeSig t = some ts ∧
      ∀ k, o.gen.sg.copula k = (if k ∈ cs ∧ k ∉ shadow p then d k else none) ∧ o.gen.sg.tree k = (if k ∈ ts ∧ k ∉ shadow p then d k else none) := by
  obtain ⟨d1, d2, d3, h1, h2, h3, hsg, -⟩ := build_gen p d o h
  have hd3 := d3_unshadowed p d d1 d2 d3 h1 h2 h3
  obtain ⟨c, t, cs, ts, e1, e2, e3, e4, e5⟩ := scenGen_ok d3 _ hsg
  rw [(hd3 "copula_type").1 (by cases p <;> simp [Pred.names, statefulNames, Pred.own]) (by simp [scenarioGeneratorNames])] at e1
  rw [(hd3 "tree_type").1 (by cases p <;> simp [Pred.names, statefulNames, Pred.own]) (by simp [scenarioGeneratorNames])] at e2
  have key : ∀ (l : List String) (k : String), (d3.rest scenGenNames).named l k = if k ∈ l ∧ k ∉ shadow p then d k else none := by
    intro l k
    unfold Dict.named Dict.rest
    by_cases hl : k ∈ l
    · by_cases hs : k ∈ scenGenNames
      · rw [if_pos hl, if_pos hs, if_neg]
        rintro ⟨-, hc⟩
        exact hc (by unfold shadow; simp only [List.mem_append]; tauto)
      · rw [if_pos hl, if_neg hs]
        have hq : k ∉ ["q_vect", "nodes_at_step", "additional_node"] := by
          intro hc; apply hs; simp only [List.mem_cons, List.not_mem_nil, or_false] at hc; unfold scenGenNames; simp only [List.mem_cons]; tauto
        by_cases hor : k ∈ p.names ∨ k ∈ scenarioGeneratorNames
        · rw [(hd3 k).2 hor hq, if_neg]
          rintro ⟨-, hc⟩
          exact hc (by unfold shadow; simp only [List.mem_append]; tauto)
        · rw [(hd3 k).1 (by tauto) (by tauto), if_pos]
          refine ⟨hl, ?_⟩
          unfold shadow
          simp only [List.mem_append]
          tauto
    · rw [if_neg hl, if_neg (fun hc => hl hc.1)]
  refine ⟨c, t, cs, ts, e1, e2, e3, e4, fun k => ?_⟩
  rw [e5]
  exact ⟨key cs k, key ts k⟩

/-- C158 (defect): the logger of the copula cannot be set, and with the default tree class neither `init` nor `base_tree` nor `learning_rate` has any effect on the tree; none of
them is refused. -/
theorem C158_dropped (p : Pred) (d : Dict) (o : Obj) (h : p.build d = .ok o) :
    o.gen.sg.copula "logger" = none ∧ (d "tree_type" = none → ∀ k, k ∉ ["tree", "savepath"] → o.gen.sg.tree k = none) := by
  obtain ⟨c, t, cs, ts, -, e2, -, e4, hk⟩ := C158_copula_and_tree p d o h
  constructor
  · rw [(hk "logger").1, if_neg]
    rintro ⟨-, hc⟩
    exact hc (by simp [shadow, scenarioGeneratorNames])
  · intro hd k hkn
    rw [hd] at e2
    simp only [Option.getD_none, Val.str.injEq] at e2
    subst e2
    have : ts = ["tree", "nodes_at_step", "savepath"] := by
      have h1 : treeSig "ScenredTree" = some ["tree", "nodes_at_step", "savepath"] := by decide +kernel
      rw [h1] at e4
      exact (Option.some.inj e4).symm
    subst this
    rw [(hk k).2, if_neg]
    rintro ⟨hc1, hc2⟩
    simp only [List.mem_cons, List.not_mem_nil, or_false, not_or] at hc1 hkn
    have : k = "nodes_at_step" := by tauto
    exact hc2 (by rw [this]; simp [shadow, scenarioGeneratorNames])

/-- C158: `max_scengen_rows` and `scengen_random_state` are the only names that are refused for being there. -/
theorem C158_refused (p : Pred) (d : Dict) (k : String) (v : Val) (hk : k ∈ rejected) (o : Obj) : p.build (d.set k v) ≠ .ok o := by
  intro h
  unfold Pred.build at h
  simp only at h
  have hkn : k ∉ p.names := by
    unfold rejected at hk
    simp only [List.mem_cons, List.not_mem_nil, or_false] at hk
    rcases hk with rfl | rfl <;> cases p <;> simp [Pred.names, statefulNames, Pred.own]
  have hkst : k ∉ statefulNames := fun hc => hkn (List.mem_append_left _ hc)
  split at h
  · split at h
    · cases h
    · next hs =>
      unfold stateful at hs
      simp only at hs
      split at hs
      · split at hs
        · cases hs
        · split at hs
          · cases hs
          · next hany =>
            apply hany
            rw [List.any_eq_true]
            refine ⟨k, hk, ?_⟩
            simp [Dict.update, Dict.rest, Dict.named, Dict.set, hkn, hkst]
      · cases hs
  · cases h
  · cases h
  · cases h

end PyF.Ctor
