import Verif.PredTrees.Lemmas

/-! Properties C216 to C219. -/

namespace PyF.PredTrees
open PyF ScenGen Scenred Spec

variable {I K : Type}

section
variable [Field K] [LinearOrder K] [DecidableEq I]

/-- **C216 (without the additional node).** The observations passed as `init_obs` have no effect at all, not even if there are too many or
too few of them. -/
theorem C216_ignored (c : Cfg) (hc : c.additional = false) (gen : Obj → Option (List ℕ) → Scens K → Except PyErr (Tree K × Obj × Option (List ℕ))) (o : Obj) (hour : I → ℕ)
    (trees : ℕ → Option (Tree K)) (nodes : Option (List ℕ)) (init init' : InitObs I K) (fc : Forecast I K) (d : Draws K) :
    predictTrees c gen o hour trees nodes init fc d = predictTrees c gen o hour trees nodes init' fc d := by
  unfold predictTrees scenGenTrees offline sampleScenarios
  simp only [hc, Bool.false_eq_true, if_false]

/-- **C216 (online).** With online reduction and an additional node, the trees are built from scenarios that start, row by row, at the
given observation (0 if none is given) up to the noise; observations are taken by position. If their number is not that of the rows
(so for a bare number as soon as there are two rows), the call fails. -/
theorem C216_online (c : Cfg) (hc : c.additional = true) (ho : c.online = true) (gen : Obj → Option (List ℕ) → Scens K → Except PyErr (Tree K × Obj × Option (List ℕ))) (o : Obj)
    (hour : I → ℕ) (trees : ℕ → Option (Tree K)) (nodes : Option (List ℕ)) (init : InitObs I K) (fc : Forecast I K) (d : Draws K)
    (hl : fc.quantiles.length = fc.idx.length) (hd : d.dim = d.steps) (hs : Shaped d.levels d.steps fc.quantiles) (u : ℕ → ℕ → ℕ → K) (hu : d.u = .ok u) :
    ((∀ n, given init = some n → n = fc.idx.length) → ∃ scs : List (Scens K), scs.length = fc.idx.length ∧
      scenGenTrees c gen o hour trees nodes init fc d = onlineTrees c.cpu true c.parallel gen o nodes scs ∧
      ∀ (i : ℕ) (q : List (List K)), fc.quantiles[i]? = some q → ∃ v sc, onlineRoot i init = some v ∧ scs[i]? = some sc ∧ sc.rows = d.steps + 1 ∧
        (∀ k, sc.val 0 k = v + d.ini i k + d.noise i 0 k) ∧
        ∀ (s k : ℕ) (w : List K), q[s]? = some w → sc.val (s + 1) k = interp d.levels w (u i s k) + d.noise i (s + 1) k) ∧
    ((∃ n, given init = some n ∧ n ≠ fc.idx.length) → predictTrees c gen o hour trees nodes init fc d = .error .assertionError) := by
  have hgiven : ∀ n, given init = some n ↔ ∃ l, onlineObs init = some l ∧ l.length = n := by
    intro n
    cases init <;> simp [given, onlineObs]
  constructor
  · intro hn
    obtain ⟨fs, e1, e2, e3⟩ := interpRows_ok d.levels d.steps u fc.quantiles 0 hs
    have hobs : ((onlineObs init).getD (List.replicate fc.idx.length 0)).length = fc.idx.length := by
      cases h : onlineObs init with
      | none => simp
      | some l => exact hn _ ((hgiven _).2 ⟨l, h, rfl⟩)
    have hroot : ∀ i, i < fc.idx.length → onlineRoot i init = some (((onlineObs init).getD (List.replicate fc.idx.length 0)).getD i 0) := by
      intro i hi
      have hi' : i < ((onlineObs init).getD (List.replicate fc.idx.length 0)).length := by rw [hobs]; exact hi
      rw [List.getD_eq_getElem?_getD, List.getElem?_eq_getElem hi', Option.getD_some]
      cases init with
      | absent => simp [onlineRoot, onlineObs]
      | scalar c0 =>
        simp only [onlineObs, Option.getD_some, List.length_cons, List.length_nil] at hi'
        have : i = 0 := by omega
        subst this
        simp [onlineRoot, onlineObs]
      | values l =>
        simp only [onlineObs, Option.getD_some] at hi'
        simp [onlineRoot, onlineObs, List.getElem?_eq_getElem hi']
      | series l =>
        simp only [onlineObs, Option.getD_some, List.length_map] at hi'
        simp [onlineRoot, onlineObs, List.getElem?_eq_getElem hi']
    refine ⟨fs.mapIdx (fun t f => { rows := d.steps + 1, val := fun s k => (if s = 0 then ((onlineObs init).getD (List.replicate fc.idx.length 0)).getD t 0 + d.ini t k else f (s - 1) k) + d.noise t s k }), by simp [e2, hl], ?_, ?_⟩
    · unfold scenGenTrees sampleScenarios
      simp only [ho, hc, hu, hd, Bool.not_true, Bool.and_false, Bool.false_eq_true, if_false, if_true, e1]
      rw [if_neg (by simp [hl]), if_neg (by simpa using hobs)]
    · intro i q hq
      have hi : i < fc.idx.length := by
        rw [← hl]; exact (List.getElem?_eq_some_iff.1 hq).1
      obtain ⟨f, g1, g2⟩ := e3 i q hq
      refine ⟨_, _, hroot i hi, by rw [List.getElem?_mapIdx, g1]; rfl, rfl, ?_, ?_⟩
      · intro k
        simp only [if_true]
      · intro s k w hw
        simp only [Nat.succ_ne_zero, if_false, Nat.add_sub_cancel]
        rw [g2, List.getD_eq_getElem?_getD, hw, Nat.zero_add]
        rfl
  · rintro ⟨n, hn1, hn2⟩
    obtain ⟨l, hl1, hl2⟩ := (hgiven n).1 hn1
    unfold predictTrees scenGenTrees sampleScenarios
    simp only [ho, hc, hu, hl1, Option.getD_some, Bool.not_true, Bool.and_false, Bool.false_eq_true, if_false, if_true]
    rw [if_neg (by simp [hl]), if_pos (by rw [hl2]; exact hn2)]

omit [LinearOrder K] in
theorem offlineObs_spec (fc : Forecast I K) (hl : fc.preds.length = fc.idx.length) (hne : ∀ p ∈ fc.preds, p ≠ []) (init : InitObs I K) (ha : Attachable fc.idx.length init) :
    ∃ obs : List (WithBot K), offlineObs fc.idx (fc.preds.map (fun (p : List K) => p.headD 0)) init = .ok obs ∧ obs.length = fc.idx.length ∧
      ∀ (i : ℕ) (s : I) (p : List K), fc.idx[i]? = some s → fc.preds[i]? = some p →
        obs[i]? = some (match offlineRoot i s p init with | some v => (v : WithBot K) | none => ⊥) := by
  cases init with
  | absent =>
    refine ⟨_, rfl, by simp [hl], ?_⟩
    intro i s p hs hp
    have := hne p (List.mem_of_getElem? hp)
    cases p with
    | nil => exact absurd rfl this
    | cons a p => simp [hp, offlineRoot]
  | scalar c =>
    refine ⟨_, rfl, by simp, ?_⟩
    intro i s p hs hp
    rw [List.getElem?_map, hs]
    rfl
  | values l =>
    refine ⟨l.map (fun (v : K) => (v : WithBot K)), by simp only [offlineObs]; exact if_pos ha, by rw [List.length_map]; exact ha, ?_⟩
    intro i s p hs hp
    have hi : i < l.length := by
      rw [show l.length = fc.idx.length from ha]; exact (List.getElem?_eq_some_iff.1 hs).1
    simp [offlineRoot, List.getElem?_eq_getElem hi]
  | series l =>
    by_cases h : l.map (·.1) = fc.idx
    · refine ⟨l.map (fun (p : I × K) => (p.2 : WithBot K)), by simp only [offlineObs]; exact if_pos h, by rw [← h]; simp, ?_⟩
      intro i s p hs hp
      have hnd : (l.map (·.1)).Nodup := ha
      rw [← h, List.getElem?_map] at hs
      cases hli : l[i]? with
      | none => rw [hli] at hs; simp at hs
      | some q =>
        rw [hli] at hs
        simp only [Option.map_some, Option.some.injEq] at hs
        have hmem : q ∈ l := List.mem_of_getElem? hli
        have hfind : (l.filter (fun q => decide (q.1 = s))).head? = some q := by
          rw [List.head?_filter]
          cases hf : l.find? (fun q => decide (q.1 = s)) with
          | none =>
            exact absurd (List.find?_eq_none.1 hf q hmem) (by simp [hs])
          | some r =>
            have h1 := List.find?_some hf
            simp only [decide_eq_true_eq] at h1
            have h2 := List.mem_of_find?_eq_some hf
            have := List.inj_on_of_nodup_map hnd h2 hmem (by rw [h1, hs])
            rw [this]
        simp [offlineRoot, hfind, hli]
    · refine ⟨fc.idx.map (fun (i : I) => match l.find? (fun (p : I × K) => decide (p.1 = i)) with | some p => (p.2 : WithBot K) | none => ⊥),
        by simp only [offlineObs]; rw [if_neg h]; exact if_pos ha, by simp, ?_⟩
      intro i s p hs hp
      simp only [List.getElem?_map, hs, Option.map_some, offlineRoot, List.head?_filter]
      cases l.find? (fun q => decide (q.1 = s)) <;> rfl

omit [LinearOrder K] [DecidableEq I] in
theorem superimpose_raised (row : List K) (N : Tree K) : Raised row N (superimpose (signal (row.map (fun (v : K) => (v : WithBot K)))) N) := by
  rw [C51_superimpose]
  refine ⟨by simp, ?_⟩
  intro k x y hx hy
  rw [List.getElem?_map, hx] at hy
  simp only [Option.map_some, Option.some.injEq] at hy
  subst hy
  refine ⟨rfl, rfl, rfl, ?_⟩
  intro s hs
  simp [signal, List.getD_eq_getElem?_getD, hs]

/-- **C216 (pre-fitted trees).** Without online reduction, but with an additional node, the tree of a row is the tree of its hour with the
observation added to the root and the prediction of step `t` to the nodes of time `t + 1`. The observation is the first prediction if
none is given; a bare number serves for all rows; a series is matched by label, and a label it lacks makes the root NaN. -/
theorem C216_offline (c : Cfg) (hc : c.additional = true) (ho : c.online = false) (gen : Obj → Option (List ℕ) → Scens K → Except PyErr (Tree K × Obj × Option (List ℕ))) (o : Obj)
    (hour : I → ℕ) (hh : ∀ s, hour s < 24) (trees : ℕ → Option (Tree K)) (ht : ∀ h, h < 24 → (trees h).isSome = true) (init : InitObs I K) (fc : Forecast I K) (d : Draws K)
    (hl : fc.preds.length = fc.idx.length) (hne : ∀ p ∈ fc.preds, p ≠ []) :
    (Attachable fc.idx.length init → ∃ ts : List (Tree K), scenGenTrees c gen o hour trees none init fc d = .ok (ts, o, none) ∧ ts.length = fc.idx.length ∧
      ∀ (i : ℕ) (s : I) (p : List K) (N : Tree K), fc.idx[i]? = some s → fc.preds[i]? = some p → trees (hour s) = some N →
        ∃ M, ts[i]? = some M ∧ (∀ v, offlineRoot i s p init = some v → Raised (v :: p) N M) ∧
          (offlineRoot i s p init = none → ∀ y ∈ M, y.t = 0 → y.v = ⊥)) ∧
    (∀ l, init = .values l → l.length ≠ fc.idx.length → predictTrees c gen o hour trees none init fc d = .error .valueError) := by
  have hfit : (List.range 24).all (fun (h : ℕ) => (trees h).isNone) = false := by
    rw [List.all_eq_false]
    exact ⟨0, by simp, by have := ht 0 (by omega); cases h : trees 0 <;> simp_all⟩
  constructor
  · intro ha
    obtain ⟨obs, e1, e2, e3⟩ := offlineObs_spec fc hl hne init ha
    obtain ⟨ts, hts⟩ := offlineTrees_ok trees (fun (row : List (WithBot K)) (t : Tree K) => superimpose (signal row) t)
      ((fc.idx.map hour).zip (List.zipWith (fun o p => o :: p) obs (fc.preds.map (fun (p : List K) => p.map (fun (v : K) => (v : WithBot K)))))) (by
        intro r hr
        have := (List.of_mem_zip (show (r.1, r.2) ∈ _ from hr)).1
        obtain ⟨s, -, hs⟩ := List.mem_map.1 this
        rw [← hs]
        exact ht _ (hh s))
    obtain ⟨l1, l2⟩ := offlineTrees_length _ _ _ ts hts
    refine ⟨ts, ?_, by rw [l1]; simp [e2, hl], ?_⟩
    · unfold scenGenTrees offline
      simp only [ho, hc, hfit, e1, hts, Option.isSome_none, Bool.false_and, Bool.false_eq_true, if_false, if_true]
    · intro i s p N hs hp hN
      have hrow : ((fc.idx.map hour).zip (List.zipWith (fun o p => o :: p) obs (fc.preds.map (fun (p : List K) => p.map (fun (v : K) => (v : WithBot K))))))[i]? =
          some (hour s, (match offlineRoot i s p init with | some v => (v : WithBot K) | none => ⊥) :: p.map (fun (v : K) => (v : WithBot K))) := by
        rw [List.getElem?_zip_eq_some]
        refine ⟨by simp [hs], ?_⟩
        rw [List.getElem?_zipWith_eq_some]
        exact ⟨_, _, e3 i s p hs hp, by rw [List.getElem?_map, hp]; rfl, rfl⟩
      obtain ⟨N', hN', hM⟩ := l2 i _ _ hrow
      rw [hN] at hN'
      cases hN'
      refine ⟨_, hM, ?_, ?_⟩
      · intro v hv
        rw [hv]
        exact superimpose_raised (v :: p) N
      · intro hnone y hy hy0
        rw [hnone, C51_superimpose] at hy
        obtain ⟨x, -, rfl⟩ := List.mem_map.1 hy
        simp only at hy0
        simp [hy0, signal]
  · intro l hinit hlen
    subst hinit
    unfold predictTrees scenGenTrees offline offlineObs
    simp only [ho, hc, hfit, Option.isSome_none, Bool.false_and, Bool.false_eq_true, if_false, if_true]
    rw [if_neg hlen]

/-- **C217 (pre-fitted trees).** Without online reduction `ScenGen` refuses numbers of nodes, but a forecaster silently drops them: its
trees are those without them. -/
theorem C217_offline (c : Cfg) (ho : c.online = false) (gen : Obj → Option (List ℕ) → Scens K → Except PyErr (Tree K × Obj × Option (List ℕ))) (o : Obj)
    (hour : I → ℕ) (trees : ℕ → Option (Tree K)) (ns : List ℕ) (init : InitObs I K) (fc : Forecast I K) (d : Draws K) :
    scenGenTrees c gen o hour trees (some ns) init fc d = .error .assertionError ∧
    (∀ out o' ns', predictTrees c gen o hour trees none init fc d = .ok (out, o', ns') → predictTrees c gen o hour trees (some ns) init fc d = .ok (out, o', some ns)) ∧
    ∀ e, predictTrees c gen o hour trees none init fc d = .error e → predictTrees c gen o hour trees (some ns) init fc d = .error e := by
  refine ⟨by unfold scenGenTrees; simp [ho], ?_, ?_⟩
  · intro out o' ns' h
    unfold predictTrees at h ⊢
    simp only [ho, Bool.false_eq_true, if_false] at h ⊢
    cases hs : scenGenTrees c gen o hour trees none init fc d with
    | error e => rw [hs] at h; simp at h
    | ok r =>
      rw [hs] at h
      simp only [Except.ok.injEq, Prod.mk.injEq] at h ⊢
      exact ⟨h.1, h.2.1, trivial⟩
  · intro e h
    unfold predictTrees at h ⊢
    simp only [ho, Bool.false_eq_true, if_false] at h ⊢
    cases hs : scenGenTrees c gen o hour trees none init fc d with
    | error e' => rw [hs] at h; simpa using h
    | ok r => rw [hs] at h; simp at h

/-- **C219 (form of the result).** There is one tree per row; a single row gives a bare tree, any other number of rows (none as well) a list. -/
theorem C219_result (c : Cfg) (gen : Obj → Option (List ℕ) → Scens K → Except PyErr (Tree K × Obj × Option (List ℕ))) (o o' : Obj) (hour : I → ℕ) (trees : ℕ → Option (Tree K))
    (nodes ns' : Option (List ℕ)) (init : InitObs I K) (fc : Forecast I K) (d : Draws K) (hl : fc.preds.length = fc.idx.length) (out : Out K)
    (hd : d.dim = d.steps) (hs : Shaped d.levels d.steps fc.quantiles)
    (h : predictTrees c gen o hour trees nodes init fc d = .ok (out, o', ns')) :
    (fc.idx.length = 1 ↔ ∃ t, out = .one t) ∧ (fc.idx.length ≠ 1 ↔ ∃ ts, out = .list ts) ∧ ∀ ts, out = .list ts → ts.length = fc.idx.length := by
  have key : ∀ ns ts o1 n1, scenGenTrees c gen o hour trees ns init fc d = .ok (ts, o1, n1) → ts.length = fc.idx.length := by
    intro ns ts o1 n1 hg
    unfold scenGenTrees at hg
    by_cases hon : c.online = true
    · simp only [hon, Bool.not_true, Bool.and_false, Bool.false_eq_true, if_false, if_true] at hg
      cases hsc : sampleScenarios fc.idx.length d.levels d.steps d.dim fc.quantiles c.additional (onlineObs init) d.u d.ini d.noise with
      | error e => rw [hsc] at hg; simp at hg
      | ok scs =>
        rw [hsc] at hg
        simp only at hg
        have hlen : scs.length = fc.idx.length := by
          unfold sampleScenarios at hsc
          by_cases hq : fc.quantiles.length ≠ fc.idx.length
          · rw [if_pos hq] at hsc; simp at hsc
          rw [if_neg hq] at hsc
          push Not at hq
          cases hu : d.u with
          | error e => rw [hu] at hsc; simp at hsc
          | ok u =>
            rw [hu] at hsc
            obtain ⟨fs, e1, e2, -⟩ := interpRows_ok d.levels d.steps u fc.quantiles 0 hs
            simp only [hd, e1] at hsc
            cases hadd : c.additional with
            | true =>
              simp only [hadd, if_true] at hsc
              split at hsc
              · simp at hsc
              · simp only [Except.ok.injEq] at hsc
                rw [← hsc]; simp [e2, hq]
            | false =>
              simp only [hadd, Bool.false_eq_true, if_false, Except.ok.injEq] at hsc
              rw [← hsc]; simp [e2, hq]
        rw [← hlen]
        unfold onlineTrees at hg
        simp only at hg
        split at hg
        · split at hg
          · simp at hg
          · split at hg
            · simp at hg
            · rename_i tsp hp
              simp only [Except.ok.injEq, Prod.mk.injEq] at hg
              rw [← hg.1]
              exact parTrees_length _ _ _ _ _ hp
        · split at hg
          · simp at hg
          · rename_i tsp o2 n2 hp
            simp only [Except.ok.injEq, Prod.mk.injEq] at hg
            rw [← hg.1]
            exact seqTrees_length _ _ _ _ _ _ _ hp
    · have hon' : c.online = false := by simpa using hon
      simp only [hon', Bool.not_false, Bool.and_true, Bool.false_eq_true, if_false] at hg
      split at hg
      · simp at hg
      · cases hof : offline c.additional hour trees fc init with
        | error e => rw [hof] at hg; simp at hg
        | ok ts0 =>
          rw [hof] at hg
          simp only [Except.ok.injEq, Prod.mk.injEq] at hg
          rw [← hg.1]
          unfold offline at hof
          split at hof
          · simp at hof
          · simp only at hof
            split at hof
            · split at hof
              · simp at hof
              · rename_i obs hobs
                have hol : obs.length = fc.idx.length := by
                  cases init with
                  | absent => simp only [offlineObs, Except.ok.injEq] at hobs; rw [← hobs]; simp [hl]
                  | scalar c0 => simp only [offlineObs, Except.ok.injEq] at hobs; rw [← hobs]; simp
                  | values l =>
                    unfold offlineObs at hobs
                    simp only at hobs
                    split at hobs
                    · simp only [Except.ok.injEq] at hobs
                      rw [← hobs]; simpa
                    · simp at hobs
                  | series l =>
                    unfold offlineObs at hobs
                    simp only at hobs
                    split at hobs
                    · rename_i he
                      simp only [Except.ok.injEq] at hobs
                      rw [← hobs, ← he]; simp
                    · split at hobs
                      · simp only [Except.ok.injEq] at hobs
                        rw [← hobs]; simp
                      · simp at hobs
                rw [(offlineTrees_length _ _ _ _ hof).1]
                simp [hol, hl]
            · rw [(offlineTrees_length _ _ _ _ hof).1]
              simp [hl]
  unfold predictTrees at h
  cases hg : scenGenTrees c gen o hour trees (if c.online then nodes else none) init fc d with
  | error e => rw [hg] at h; simp at h
  | ok r =>
    obtain ⟨ts, o1, n1⟩ := r
    rw [hg] at h
    have hlen := key _ _ _ _ hg
    simp only [Except.ok.injEq, Prod.mk.injEq] at h
    obtain ⟨hout, -, -⟩ := h
    rw [← hlen]
    match ts, hout with
    | [], hout => subst hout; simp
    | [t], hout => subst hout; simp
    | t :: t' :: ts, hout => subst hout; simp

end

end PyF.PredTrees
