import Verif.Ctor.Props2

namespace PyF.Ctor

open PyF

/-! ### C161: experts after a search -/

theorem statefulNames_not_own (p : Pred) : ∀ k ∈ statefulNames, k ∉ p.own ∧ k ≠ "periodicity" := by
  intro k hk
  unfold statefulNames at hk
  simp only [List.mem_cons, List.not_mem_nil, or_false] at hk
  rcases hk with rfl | rfl | rfl | rfl | rfl | rfl | rfl | rfl | rfl | rfl <;> cases p <;> simp [Pred.own]

theorem build_stateful (p : Pred) (d : Dict) (o : Obj) (h : p.build d = .ok o) : ∃ o', stateful ((d.rest p.names).update ((d.withDefaults p.names p.default).named statefulNames)) = .ok o' ∧
    o.init = o'.init.update ((d.withDefaults p.names p.default).named p.own) ∧ (∀ k, k ≠ "periodicity" → k ∉ p.own → o.attrs k = o'.attrs k) := by
  unfold Pred.build at h
  simp only at h
  split at h
  · split at h
    · cases h
    · next o' hs =>
      cases h
      refine ⟨o', hs, rfl, fun k h1 h2 => ?_⟩
      simp only [h1, h2, if_false]
  · cases h
  · cases h
  · cases h

theorem build_attrs_none (p : Pred) (d : Dict) (o : Obj) (h : p.build d = .ok o) (k : String) (hk : k ∉ p.names) : o.attrs k = none := by
  obtain ⟨o', h1, -, h3⟩ := build_stateful p d o h
  obtain ⟨-, -, -, -, -, s6⟩ := stateful_ok _ _ h1
  have hk1 : k ∉ statefulNames := fun hc => hk (List.mem_append_left _ hc)
  have hk2 : k ∉ p.own := fun hc => hk (List.mem_append_right _ hc)
  have hk3 : k ≠ "periodicity" := by rintro rfl; apply hk2; cases p <;> simp [Pred.own]
  rw [h3 k hk3 hk2]
  exact (s6 k hk1).1

/-- `init_pars` of an expert: the values of its parameters. -/
theorem build_init_named (p : Pred) (d : Dict) (o : Obj) (h : p.build d = .ok o) :
    (∀ k ∈ p.names, k ≠ "targets_names" → o.init k = some ((d k).getD (p.default k))) ∧ o.init "targets_names" = o.attrs "targets_names" := by
  obtain ⟨o', h1, h2, h3⟩ := build_stateful p d o h
  obtain ⟨s1, -, s3, -, s5, -⟩ := stateful_ok _ _ h1
  have hdef : ∀ k ∈ statefulNames, ((d.rest p.names).update ((d.withDefaults p.names p.default).named statefulNames)) k = some ((d k).getD (p.default k)) := by
    intro k hk
    have hk2 : k ∈ p.names := List.mem_append_left _ hk
    simp only [Dict.update, Dict.named, hk, if_true, Dict.withDefaults, hk2, Option.some_or]
  constructor
  · intro k hk ht
    rw [h2]
    by_cases ho : k ∈ p.own
    · simp only [Dict.update, Dict.named, ho, if_true, Dict.withDefaults, hk, Option.some_or]
    · have hs : k ∈ statefulNames := by
        rcases List.mem_append.1 hk with h | h
        · exact h
        · exact absurd h ho
      simp only [Dict.update, Dict.named, ho, if_false, Option.none_or]
      by_cases hn : k = "nodes_at_step"
      · subst hn
        rw [s3, hdef _ hs]
        rfl
      · rw [(s1 k hs hn ht).2, hdef k hs, Option.getD_some]
  · have hm : "targets_names" ∈ statefulNames := by simp [statefulNames]
    obtain ⟨ho, hp⟩ := statefulNames_not_own p _ hm
    rw [h2, h3 _ hp ho, ← s5]
    simp only [Dict.update, Dict.named, ho, if_false, Option.none_or]

theorem targetsOf_ne_null (a b : Val) : targetsOf a b ≠ .null := by
  unfold targetsOf
  split
  · intro h; cases h
  · intro h; cases h
  · next h1 h2 => intro hc; subst hc; cases a <;> simp_all

theorem targetsOf_idem (a b c : Val) : targetsOf c (targetsOf a b) = targetsOf a b := by
  have := targetsOf_ne_null a b
  revert this
  generalize targetsOf a b = t
  intro ht
  cases t <;> first | rfl | exact absurd rfl ht

/-- Building an expert anew from `get_params` gives the same attributes. -/
theorem rebuild_attrs (p : Pred) (d : Dict) (o o' : Obj) (h : p.build d = .ok o) (h' : p.build (p.getParams o) = .ok o') : o'.attrs = o.attrs := by
  obtain ⟨a1, a2, a3, a4⟩ := build_ok p d o h
  obtain ⟨b1, b2, b3, b4⟩ := build_ok p _ o' h'
  have gp : ∀ k ∈ p.names, p.getParams o k = o.attrs k := by
    intro k hk
    simp only [Pred.getParams, hk, if_true]
  have m1 : "targets_names" ∈ p.names ∧ "target_name" ∈ p.names ∧ "periodicity" ∈ p.names ∧ "n_sa" ∈ p.names := by cases p <;> simp [Pred.names, statefulNames, Pred.own]
  funext k
  by_cases hk : k ∈ p.names
  · by_cases k1 : k = "nodes_at_step"
    · rw [k1, a2, b2]
    · by_cases k2 : k = "targets_names"
      · rw [k2, b3, gp _ m1.1, a3, Option.getD_some, targetsOf_idem]
      · by_cases k3 : k = "periodicity"
        · rw [k3, b4, gp _ m1.2.2.1, gp _ m1.2.2.2]
          have hn : o.attrs "n_sa" = some ((d "n_sa").getD (.num 1)) := by
            rw [a1 "n_sa" m1.2.2.2 (by decide +kernel) (by decide +kernel) (by decide +kernel)]
            cases p <;> rfl
          rw [hn, a4]
          by_cases hc : (d "periodicity").getD .null = .null
          · simp only [if_pos hc, Option.getD_some, ite_self]
          · simp only [if_neg hc]
        · rw [b1 k hk k1 k2 k3, gp k hk, a1 k hk k1 k2 k3, Option.getD_some]
  · rw [build_attrs_none p _ o' h' k hk, build_attrs_none p d o h k hk]

theorem rebuild_gen (p : Pred) (o o' : Obj) (h' : p.build (p.getParams o) = .ok o') (hn : o.attrs "nodes_at_step" = none) :
    (∀ k, k ∉ ["q_vect", "nodes_at_step", "val_ratio"] → o'.gen.own k = none) ∧ o'.gen.own "nodes_at_step" = some .null ∧ (∀ k, o'.gen.sg.copula k = none) ∧ (∀ k, o'.gen.sg.tree k = none) ∧
      ∀ k, k ∉ ["q_vect", "nodes_at_step"] → o'.gen.sg.own k = none := by
  obtain ⟨d1, d2, d3, h1, h2, h3, hsg, hown⟩ := build_gen p _ o' h'
  obtain ⟨c, t, cs, ts, -, -, -, -, hct⟩ := C158_copula_and_tree p _ o' h'
  have gpn : ∀ k, k ∉ p.names → p.getParams o k = none := by
    intro k hk
    simp only [Pred.getParams, hk, if_false]
  have hd1 : ∀ k, k ∉ statefulNames → d1 k = none := by
    intro k hk
    rw [h1]
    simp only [Dict.update, Dict.named, hk, if_false, Option.none_or, Dict.rest]
    split
    · rfl
    · next hc => exact gpn k hc
  have hd2 : ∀ k, k ∉ ["q_vect", "nodes_at_step", "val_ratio"] → d2 k = none := by
    intro k hk
    rw [h2]
    simp only [Dict.update, Dict.named, hk, if_false, Option.none_or, Dict.rest]
    split
    · rfl
    · next hc => exact hd1 k hc
  have nd2 : d2 "nodes_at_step" = some .null := by
    rw [h2, h1]
    have e1 : "nodes_at_step" ∈ ["q_vect", "nodes_at_step", "val_ratio"] := by simp
    have e2 : "nodes_at_step" ∈ statefulNames := by simp [statefulNames]
    have e3 : "nodes_at_step" ∈ p.names := List.mem_append_left _ e2
    have e4 : p.default "nodes_at_step" = .null := by cases p <;> decide +kernel
    simp only [Dict.update, Dict.named, e1, e2, e3, if_true, Dict.withDefaults, Option.some_or, Option.getD_some, Pred.getParams, hn, Option.getD_none, e4]
  have hshadow : ∀ k, k ∉ shadow p → p.getParams o k = none := by
    intro k hk
    apply gpn
    intro hc
    exact hk (by unfold shadow; simp only [List.mem_append]; tauto)
  refine ⟨fun k hk => ?_, ?_, fun k => ?_, fun k => ?_, fun k hk => ?_⟩
  · rw [hown]
    unfold Dict.named
    split
    · exact hd2 k hk
    · rfl
  · rw [hown]
    have e : "nodes_at_step" ∈ scenarioGeneratorNames := by simp [scenarioGeneratorNames]
    simp only [Dict.named, e, if_true, nd2]
  · rw [(hct k).1]
    split
    · next hc => exact hshadow k hc.2
    · rfl
  · rw [(hct k).2]
    split
    · next hc => exact hshadow k hc.2
    · rfl
  · obtain ⟨c, t, cs, ts, -, -, -, -, e5⟩ := scenGen_ok d3 _ hsg
    rw [e5]
    simp only
    unfold Dict.named
    split
    · rw [h3]
      simp only [Dict.update, Dict.rest, Dict.named]
      by_cases hv : k ∈ ["q_vect", "nodes_at_step", "val_ratio"]
      · have hk2 : k = "val_ratio" := by
          simp only [List.mem_cons, List.not_mem_nil, or_false, not_or] at hv hk
          tauto
        subst hk2
        simp [scenarioGeneratorNames]
      · rw [hd2 k hv]
        simp
    · rfl

theorem foldl_set_other (best : List (String × Val)) (d : Dict) (k : String) (hk : k ∉ best.map Prod.fst) : (best.foldl (fun d b => d.set b.1 b.2) d) k = d k := by
  induction best generalizing d with
  | nil => rfl
  | cons b best ih =>
    rw [List.map_cons, List.mem_cons, not_or] at hk
    rw [List.foldl_cons, ih _ hk.2]
    simp only [Dict.set, hk.1, if_false]

/-- The parameters a search changes, L183, L340-341. -/
def searched : List String := ["alpha", "omega", "n_harmonics", "r", "q"]

theorem fitExpert_ok (p : Pred) (best : List (String × Val)) (d : Dict) (o f : Obj) (ho : p.build d = .ok o) (hb : ∀ b ∈ best, b.1 ∈ searched) (h : fitExpert p best o = .ok f) :
    (∃ d', p.build d' = .ok f) ∧ f.attrs "optimize_hyperpars" ≠ some (.bool true) ∧ ∀ k, k ∉ searched → k ≠ "optimize_hyperpars" → f.attrs k = o.attrs k := by
  unfold fitExpert at h
  split at h
  · next hopt =>
    obtain ⟨a1, a2, a3, a4⟩ := build_ok p d o ho
    obtain ⟨i1, i2⟩ := build_init_named p d o ho
    obtain ⟨b1, b2, b3, b4⟩ := build_ok p _ f h
    have m1 : "targets_names" ∈ p.names ∧ "target_name" ∈ p.names ∧ "periodicity" ∈ p.names ∧ "n_sa" ∈ p.names ∧ "optimize_hyperpars" ∈ p.names := by
      cases p <;> simp [Pred.names, statefulNames, Pred.own]
    have hval : ∀ k, k ∉ searched → k ≠ "optimize_hyperpars" → ((best.foldl (fun d b => d.set b.1 b.2) o.init).set "optimize_hyperpars" (.bool false)) k = o.init k := by
      intro k hk hko
      simp only [Dict.set, hko, if_false]
      exact foldl_set_other best o.init k (fun hc => by
        obtain ⟨b, hb1, hb2⟩ := List.mem_map.1 hc
        exact hk (hb2 ▸ hb b hb1))
    refine ⟨⟨_, h⟩, ?_, fun k hk hko => ?_⟩
    · rw [b1 _ m1.2.2.2.2 (by decide +kernel) (by decide +kernel) (by decide +kernel)]
      simp [Dict.set]
    · by_cases hkn : k ∈ p.names
      · by_cases k1 : k = "nodes_at_step"
        · rw [k1, a2, b2]
        · by_cases k2 : k = "targets_names"
          · rw [k2, b3, hval "targets_names" (by simp [searched]) (by decide +kernel), i2, a3, Option.getD_some, targetsOf_idem]
          · by_cases k3 : k = "periodicity"
            · rw [k3, b4, a4, hval "periodicity" (by simp [searched]) (by decide +kernel), hval "n_sa" (by simp [searched]) (by decide +kernel),
                i1 "periodicity" m1.2.2.1 (by decide +kernel), i1 "n_sa" m1.2.2.2.1 (by decide +kernel)]
              have e1 : p.default "periodicity" = .null := by cases p <;> decide +kernel
              have e2 : p.default "n_sa" = .num 1 := by cases p <;> decide +kernel
              rw [e1, e2]
              simp only [Option.getD_some]
              split
              · rfl
              · next hc =>
                cases hd : d "periodicity" with
                | none => rw [hd] at hc; exact absurd rfl hc
                | some v => rfl
            · rw [b1 k hkn k1 k2 k3, a1 k hkn k1 k2 k3, hval k hk hko, i1 k hkn k2, Option.getD_some]
      · rw [build_attrs_none p _ f h k hkn, build_attrs_none p d o ho k hkn]
  · next hopt =>
    cases h
    exact ⟨⟨d, ho⟩, hopt, fun k _ _ => rfl⟩

theorem multi_built (lin : ℕ → ℕ → ℕ → ℚ) (base : Pred) (subPars : Option (List Dict)) (d : Dict) (es : List Obj) (h : multi lin base subPars d = .ok es) :
    (∃ n, natOf (some ((d "n_predictors").getD (.num 4))) = some n ∧ es.length = n) ∧ (∀ e ∈ es, ∃ d', base.build d' = .ok e) ∧
      ∀ l, subPars = some l → ∀ (i : ℕ) (e : Obj), es[i]? = some e → ∃ d', l[i]? = some d' ∧ base.build d' = .ok e := by
  obtain ⟨v, m, nsa, n, p, o, hv, h1, h2, h3, h4, h5, h6, h7⟩ := multi_ok lin base subPars d es h
  have hn : natOf (some ((d "n_predictors").getD (.num 4))) = some n := by
    rw [hv] at h3
    have e1 : "n_predictors" ∈ multiNames := by simp [multiNames, multiOwn]
    have e2 : multiDefault "n_predictors" = .num 4 := by decide +kernel
    simp only [Dict.withDefaults, e1, if_true, e2] at h3
    exact h3
  unfold experts at h7
  cases subPars with
  | none =>
    simp only at h7
    obtain ⟨hl, he⟩ := Hybrid.mapM_inv _ _ _ h7
    refine ⟨⟨n, hn, by rw [hl, C160_windows]; simp⟩, fun e hmem => ?_, fun l hl => by cases hl⟩
    obtain ⟨i, hi⟩ := List.mem_iff_getElem?.1 hmem
    have hlt : i < (windows (lin m n) n nsa p).length := by rw [← hl]; exact (List.getElem?_eq_some_iff.1 hi).1
    obtain ⟨e', he1, he2⟩ := he i _ (List.getElem?_eq_getElem hlt)
    rw [hi] at he2
    cases he2
    exact ⟨_, he1⟩
  | some l =>
    simp only at h7
    obtain ⟨hl, he⟩ := Hybrid.mapM_inv _ _ _ h7
    have key : ∀ (i : ℕ) (e : Obj), es[i]? = some e → ∃ d', l[i]? = some d' ∧ base.build d' = .ok e := by
      intro i e hi
      have hlt : i < (List.range n).length := by rw [← hl]; exact (List.getElem?_eq_some_iff.1 hi).1
      obtain ⟨e', he1, he2⟩ := he i i (by rw [List.getElem?_range (by simpa using hlt)])
      rw [hi] at he2
      cases he2
      unfold buildNth at he1
      split at he1
      · next d' hd' => exact ⟨d', hd', he1⟩
      · cases he1
    refine ⟨⟨n, hn, by rw [hl]; simp⟩, fun e hmem => ?_, fun l' hl' => by cases hl'; exact key⟩
    obtain ⟨i, hi⟩ := List.mem_iff_getElem?.1 hmem
    obtain ⟨d', -, h'⟩ := key i e hi
    exact ⟨d', h'⟩

/-- C161: after a search every expert has the parameters that the expert in the same place of the untuned model ends with after its own search: the searched ones from its best trial,
all others unchanged, its window among them; no expert searches any more. (Defect:) its scenario generator is the default one: every keyword for the generator other than
`q_vect` and `val_ratio` is lost, `nodes_at_step` included. -/
theorem C161_tuned (lin : ℕ → ℕ → ℕ → ℚ) (base : Pred) (best : ℕ → List (String × Val)) (subPars : Option (List Dict)) (d : Dict) (es2 : List Obj)
    (hb : ∀ i, ∀ b ∈ best i, b.1 ∈ searched) (h : tunedMulti lin base best subPars d = .ok es2) :
    ∃ es, multi lin base subPars (d.set "optimize_hyperpars" (.bool false)) = .ok es ∧ es2.length = es.length ∧
      ∀ (i : ℕ) (e e2 : Obj), es[i]? = some e → es2[i]? = some e2 →
        (∃ f, fitExpert base (best i) e = .ok f ∧ e2.attrs = f.attrs) ∧
        (∀ k, k ∉ searched → k ≠ "optimize_hyperpars" → e2.attrs k = e.attrs k) ∧ e2.attrs "optimize_hyperpars" ≠ some (.bool true) ∧
        (∀ k, k ∉ ["q_vect", "nodes_at_step", "val_ratio"] → e2.gen.own k = none) ∧ e2.gen.own "nodes_at_step" = some .null ∧
        (∀ k, e2.gen.sg.copula k = none) ∧ (∀ k, e2.gen.sg.tree k = none) ∧ ∀ k, k ∉ ["q_vect", "nodes_at_step"] → e2.gen.sg.own k = none := by
  unfold tunedMulti at h
  split at h
  · cases h
  · next es hes =>
    split at h
    · cases h
    · next fs hfs =>
      obtain ⟨hl, hfe⟩ := Hybrid.mapM_inv _ _ _ hfs
      obtain ⟨⟨n, hn, hln⟩, hbuilt, -⟩ := multi_built lin base subPars _ es hes
      obtain ⟨⟨n', hn', hln'⟩, -, hnth⟩ := multi_built lin base _ _ es2 h
      have hnn : n' = n := by
        have q1 : ("n_predictors" : String) ≠ "optimize_hyperpars" := by decide +kernel
        have q2 : ("n_predictors" : String) ≠ "optimize_submodels_hyperpars" := by decide +kernel
        simp only [Dict.set, q1, q2, if_false] at hn hn'
        rw [hn] at hn'
        exact (Option.some.inj hn').symm
      refine ⟨es, hes, by rw [hln', hnn, hln], fun i e e2 hi hi2 => ?_⟩
      obtain ⟨f, hf1, hf2⟩ := hfe i (e, i) (by rw [List.getElem?_zipIdx, hi]; simp)
      simp only at hf1
      obtain ⟨d0, hd0⟩ := hbuilt e (List.mem_of_getElem? hi)
      obtain ⟨d2, hd2, hb2⟩ := hnth _ rfl i e2 hi2
      rw [List.getElem?_map, hf2, Option.map_some, Option.some.injEq] at hd2
      subst hd2
      obtain ⟨⟨df, hdf⟩, hoff, hsame⟩ := fitExpert_ok base (best i) d0 e f hd0 (hb i) hf1
      have hattrs := rebuild_attrs base df f e2 hdf hb2
      have hnodes : f.attrs "nodes_at_step" = none := (build_ok base df f hdf).2.1
      exact ⟨⟨f, hf1, hattrs⟩, fun k q1 q2 => by rw [hattrs]; exact hsame k q1 q2, by rw [hattrs]; exact hoff, rebuild_gen base f e2 hb2 hnodes⟩

end PyF.Ctor
