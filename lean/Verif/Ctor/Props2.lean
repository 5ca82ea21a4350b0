import Verif.Ctor.Props
import Mathlib.Data.List.Nodup
import Mathlib.Data.Finset.Card
import Mathlib.Order.Interval.Finset.Nat

namespace PyF.Ctor

open PyF

/-! ### C160: windows of the experts -/

/-- C160: window `j` is the `j`-th point of the grid, rounded down, but not less than the horizon and the period. -/
theorem C160_windows (lin : ℕ → ℚ) (n nsa period : ℕ) : windows lin n nsa period = (List.range n).map (fun j => max ⌊lin (j + 1)⌋.toNat (max nsa period)) := by
  unfold windows
  simp only
  split
  · rw [List.map_map]
    refine List.map_congr_left (fun j _ => ?_)
    simp only [Function.comp, max_assoc]
  · next h =>
    refine List.map_congr_left (fun j hj => ?_)
    have h2 : ¬ (max ⌊lin (j + 1)⌋.toNat nsa < period) := by
      intro hc
      apply h
      rw [List.any_eq_true]
      exact ⟨_, List.mem_map_of_mem hj, by simpa using hc⟩
    omega

/-- C160: there is one window per expert, they do not decrease, each is at least the horizon and the period, and the last is the history length (or the horizon, if that is
larger). -/
theorem C160_shape (lin : ℕ → ℚ) (m n nsa period : ℕ) (hl : LinOk lin m n) (hp : period < m) :
    (windows lin n nsa period).length = n ∧ (windows lin n nsa period).Pairwise (· ≤ ·) ∧ (∀ w ∈ windows lin n nsa period, nsa ≤ w ∧ period ≤ w ∧ w ≤ max m nsa) ∧
      (1 ≤ n → (windows lin n nsa period)[n - 1]? = some (max m nsa)) := by
  rw [C160_windows]
  refine ⟨by simp, ?_, ?_, ?_⟩
  · rw [List.pairwise_map]
    refine List.Pairwise.imp ?_ List.pairwise_lt_range
    intro a b hab
    have h1 := Int.floor_le_floor (hl.mono (a + 1) (b + 1) (by omega))
    have h2 := Int.toNat_le_toNat h1
    omega
  · intro w hw
    obtain ⟨j, hj, rfl⟩ := List.mem_map.1 hw
    have hj := List.mem_range.1 hj
    have h1 := hl.mono (j + 1) n (by omega)
    rw [hl.last] at h1
    have h2 : ⌊lin (j + 1)⌋ ≤ (m : ℤ) := by
      have := Int.floor_le_floor h1
      rwa [Int.floor_natCast] at this
    omega
  · intro hn
    rw [List.getElem?_map, List.getElem?_range (by omega)]
    simp only [Option.map_some]
    rw [show n - 1 + 1 = n by omega, hl.last, Int.floor_natCast, Int.toNat_natCast]
    congr 1
    omega

/-- C160: if there are more experts than whole numbers between the smallest and the largest window, two experts have the same window. -/
theorem C160_duplicates (lin : ℕ → ℚ) (m n nsa period : ℕ) (hl : LinOk lin m n) (hp : period < m) (hn : max m nsa - max nsa period + 1 < n) :
    ¬ (windows lin n nsa period).Nodup := by
  intro hnd
  obtain ⟨h1, -, h2, -⟩ := C160_shape lin m n nsa period hl hp
  have hsub : (windows lin n nsa period).toFinset ⊆ Finset.Icc (max nsa period) (max m nsa) := by
    intro w hw
    have := h2 w (List.mem_toFinset.1 hw)
    rw [Finset.mem_Icc]
    omega
  have := Finset.card_le_card hsub
  rw [List.toFinset_card_of_nodup hnd, h1, Nat.card_Icc] at this
  omega

/-! ### C159: what the experts are built with -/

/-- Keywords of `FK_multi` that are kept and never used for the experts. -/
def unused : List String := ["alphas", "omegas", "ns_harmonics", "r", "q"]

theorem multi_v_congr (d d' : Dict) (h : ∀ k, k ∉ unused → d k = d' k) (k : String) (hk : k ∉ unused) :
    d.withDefaults multiNames multiDefault k = d'.withDefaults multiNames multiDefault k := by
  unfold Dict.withDefaults
  rw [h k hk]

theorem unused_own : ∀ k ∈ unused, k ∈ multiNames ∧ k ∉ statefulNames := by
  intro k hk
  unfold unused at hk
  simp only [List.mem_cons, List.not_mem_nil, or_false] at hk
  rcases hk with rfl | rfl | rfl | rfl | rfl <;> simp [multiNames, multiOwn, statefulNames]

/-- C159 (defect): `alphas`, `omegas`, `ns_harmonics`, `r` and `q` have no influence on the experts. -/
theorem C159_unused (lin : ℕ → ℕ → ℕ → ℚ) (base : Pred) (subPars : Option (List Dict)) (d d' : Dict) (h : ∀ k, k ∉ unused → d k = d' k) :
    multi lin base subPars d = multi lin base subPars d' := by
  have hv := multi_v_congr d d' h
  have hst : (d.rest multiNames).update ((d.withDefaults multiNames multiDefault).named statefulNames) = (d'.rest multiNames).update ((d'.withDefaults multiNames multiDefault).named statefulNames) := by
    funext k
    unfold Dict.update Dict.named Dict.rest
    by_cases hk : k ∈ unused
    · obtain ⟨h1, h2⟩ := unused_own k hk
      simp only [h1, h2, if_true, if_false]
    · rw [h k hk, hv k hk]
  have hper : periodOf (d.withDefaults multiNames multiDefault) = periodOf (d'.withDefaults multiNames multiDefault) := by
    unfold periodOf
    rw [hv "periodicity" (by simp [unused]), hv "n_sa" (by simp [unused])]
  unfold multi
  simp only
  rw [hst, hper, hv "m" (by simp [unused]), hv "n_sa" (by simp [unused]), hv "n_predictors" (by simp [unused]), hv "optimize_submodels_hyperpars" (by simp [unused])]

/-- Attributes of a stateful forecaster. -/
theorem stateful_ok (d : Dict) (o : Obj) (h : stateful d = .ok o) :
    (∀ k ∈ statefulNames, k ≠ "nodes_at_step" → k ≠ "targets_names" → o.attrs k = some ((d k).getD (statefulDefault k)) ∧ o.init k = some ((d k).getD (statefulDefault k))) ∧
    o.attrs "nodes_at_step" = none ∧ o.init "nodes_at_step" = some ((d "nodes_at_step").getD .null) ∧
    o.attrs "targets_names" = some (targetsOf ((d "target_name").getD (.str "target")) ((d "targets_names").getD .null)) ∧ o.init "targets_names" = o.attrs "targets_names" ∧
    (∀ k, k ∉ statefulNames → o.attrs k = none ∧ o.init k = d k) := by
  unfold stateful at h
  simp only at h
  split at h
  · split at h
    · cases h
    · split at h
      · cases h
      · split at h
        · cases h
        · cases h
          have ht1 : "targets_names" ∈ statefulNames := by simp [statefulNames]
          have ht2 : "nodes_at_step" ∈ statefulNames := by simp [statefulNames]
          have ht3 : "target_name" ∈ statefulNames := by simp [statefulNames]
          have hne : ("nodes_at_step" : String) ≠ "targets_names" := by decide +kernel
          have hd1 : statefulDefault "nodes_at_step" = .null := by decide +kernel
          have hd2 : statefulDefault "targets_names" = .null := by decide +kernel
          have hd3 : statefulDefault "target_name" = .str "target" := by decide +kernel
          refine ⟨fun k hk h1 h2 => ⟨?_, ?_⟩, ?_, ?_, ?_, ?_, fun k hk => ⟨?_, ?_⟩⟩
          · simp only [h1, h2, if_false, Dict.withDefaults, hk, if_true]
          · simp only [Dict.update, Dict.rest, hk, if_true, Option.none_or, Dict.set, h2, if_false, Dict.withDefaults]
          · simp only [if_true]
          · simp only [Dict.update, Dict.rest, ht2, if_true, Option.none_or, Dict.set, hne, if_false, Dict.withDefaults, hd1]
          · simp only [hne.symm, if_false, if_true, Dict.withDefaults, ht1, ht3, Option.getD_some, hd2, hd3]
          · simp only [hne.symm, if_false, if_true, Dict.update, Dict.rest, ht1, Option.none_or, Dict.set]
          · have e1 : k ≠ "nodes_at_step" := by rintro rfl; exact hk ht2
            have e2 : k ≠ "targets_names" := by rintro rfl; exact hk ht1
            simp only [e1, e2, if_false, Dict.withDefaults, hk]
          · have e2 : k ≠ "targets_names" := by rintro rfl; exact hk ht1
            simp only [Dict.update, Dict.rest, hk, if_false, Dict.set, e2, Dict.withDefaults, Option.or_none]
  · cases h

/-- Attributes of an expert. -/
theorem build_ok (p : Pred) (d : Dict) (o : Obj) (h : p.build d = .ok o) :
    (∀ k ∈ p.names, k ≠ "nodes_at_step" → k ≠ "targets_names" → k ≠ "periodicity" → o.attrs k = some ((d k).getD (p.default k))) ∧
    o.attrs "nodes_at_step" = none ∧
    o.attrs "targets_names" = some (targetsOf ((d "target_name").getD (.str "target")) ((d "targets_names").getD .null)) ∧
    o.attrs "periodicity" = (if (d "periodicity").getD .null = .null then some ((d "n_sa").getD (.num 1)) else d "periodicity") := by
  unfold Pred.build at h
  simp only at h
  split at h
  · split at h
    · cases h
    · next o' hs =>
      cases h
      obtain ⟨s1, s2, -, s3, -, -⟩ := stateful_ok _ _ hs
      have hdef : ∀ k ∈ statefulNames, ((d.rest p.names).update ((d.withDefaults p.names p.default).named statefulNames)) k = some ((d k).getD (p.default k)) := by
        intro k hk
        have hk2 : k ∈ p.names := List.mem_append_left _ hk
        simp only [Dict.update, Dict.named, hk, if_true, Dict.withDefaults, hk2, Option.some_or]
      have hown : ∀ k ∈ statefulNames, k ∉ p.own := by
        intro k hk
        unfold statefulNames at hk
        simp only [List.mem_cons, List.not_mem_nil, or_false] at hk
        rcases hk with rfl | rfl | rfl | rfl | rfl | rfl | rfl | rfl | rfl | rfl <;> cases p <;> simp [Pred.own]
      have hper : ∀ k ∈ statefulNames, k ≠ "periodicity" := by
        intro k hk hc
        rw [hc] at hk
        simp [statefulNames] at hk
      refine ⟨fun k hk h1 h2 h3 => ?_, ?_, ?_, ?_⟩
      · simp only [h3, if_false]
        by_cases ho : k ∈ p.own
        · rw [if_pos ho]
          simp only [Dict.withDefaults, hk, if_true]
        · rw [if_neg ho]
          have hk2 : k ∈ statefulNames := by
            rcases List.mem_append.1 hk with h | h
            · exact h
            · exact absurd h ho
          rw [(s1 k hk2 h1 h2).1, hdef k hk2, Option.getD_some]
      · have hm : "nodes_at_step" ∈ statefulNames := by simp [statefulNames]
        simp only [hper _ hm, if_false, hown _ hm]
        exact s2
      · have hm : "targets_names" ∈ statefulNames := by simp [statefulNames]
        have hm2 : "target_name" ∈ statefulNames := by simp [statefulNames]
        simp only [hper _ hm, if_false, hown _ hm]
        rw [s3, hdef _ hm, hdef _ hm2]
        have e1 : p.default "target_name" = .str "target" := by cases p <;> decide +kernel
        have e2 : p.default "targets_names" = .null := by cases p <;> decide +kernel
        rw [Option.getD_some, Option.getD_some, e1, e2]
      · have hm : "periodicity" ∈ p.names := by cases p <;> simp [Pred.names, Pred.own]
        have hm2 : "n_sa" ∈ p.names := by cases p <;> simp [Pred.names, statefulNames]
        have e1 : p.default "periodicity" = .null := by cases p <;> decide +kernel
        have e2 : p.default "n_sa" = .num 1 := by cases p <;> decide +kernel
        simp only [if_true, Dict.withDefaults, hm, hm2, e1, e2, Option.some.injEq]
        split
        · rfl
        · next hc =>
          cases hd : d "periodicity" with
          | none => rw [hd] at hc; exact absurd rfl hc
          | some v => rfl
  · cases h
  · cases h
  · cases h

theorem multi_ok (lin : ℕ → ℕ → ℕ → ℚ) (base : Pred) (subPars : Option (List Dict)) (d : Dict) (es : List Obj) (h : multi lin base subPars d = .ok es) :
    ∃ v m nsa n p o, v = d.withDefaults multiNames multiDefault ∧ natOf (v "m") = some m ∧ natOf (v "n_sa") = some nsa ∧ natOf (v "n_predictors") = some n ∧ periodOf v = some p ∧
      p < m ∧ stateful ((d.rest multiNames).update (v.named statefulNames)) = .ok o ∧
      experts lin base subPars (subInit o.init ((v "optimize_submodels_hyperpars").getD .null)) m nsa n p = .ok es := by
  unfold multi at h
  simp only at h
  split at h
  · next m nsa n p h1 h2 h3 h4 =>
    split at h
    · cases h
    · next o ho =>
      split at h
      · next hp => exact ⟨_, m, nsa, n, p, o, rfl, h1, h2, h3, h4, hp, ho, h⟩
      · cases h
  · cases h

/-- C159: expert `i` has the `i`-th window as `m`, the value of `optimize_submodels_hyperpars` as `optimize_hyperpars`, and the horizon and target of the combined model; the singular
keywords `alpha`, `omega`, `n_harmonics` are used although `FK_multi` does not have them. (Defect:) the period is the horizon and, for `FK`, `r` and `q` are 0.1, whatever is
given to `FK_multi`. -/
theorem C159_expert_parameters (lin : ℕ → ℕ → ℕ → ℚ) (base : Pred) (d : Dict) (es : List Obj) (h : multi lin base none d = .ok es) :
    ∃ m nsa n p, natOf (some ((d "m").getD (.num 24))) = some m ∧ natOf (some ((d "n_sa").getD (.num 1))) = some nsa ∧ natOf (some ((d "n_predictors").getD (.num 4))) = some n ∧
      (if (d "periodicity").getD .null = .null then p = nsa else natOf (d "periodicity") = some p) ∧ p < m ∧ es.length = n ∧
      ∀ (i : ℕ) (e : Obj), es[i]? = some e →
        (∃ w : ℕ, (windows (lin m n) n nsa p)[i]? = some w ∧ e.attrs "m" = some (.num w)) ∧
        e.attrs "alpha" = some ((d "alpha").getD (.num (4 / 5))) ∧ e.attrs "omega" = some ((d "omega").getD (.num (99 / 100))) ∧
        e.attrs "n_harmonics" = some ((d "n_harmonics").getD (.num 3)) ∧
        e.attrs "n_sa" = some ((d "n_sa").getD (.num 1)) ∧ e.attrs "target_name" = some ((d "target_name").getD (.str "target")) ∧
        e.attrs "optimize_hyperpars" = some ((d "optimize_submodels_hyperpars").getD (.bool true)) ∧
        e.attrs "periodicity" = e.attrs "n_sa" ∧ (base = .fk → e.attrs "r" = some (.num (1 / 10)) ∧ e.attrs "q" = some (.num (1 / 10))) := by
  obtain ⟨v, m, nsa, n, p, o, hv, h1, h2, h3, h4, h5, h6, h7⟩ := multi_ok lin base none d es h
  have vm : ∀ k ∈ multiNames, v k = some ((d k).getD (multiDefault k)) := by
    intro k hk
    rw [hv]
    simp only [Dict.withDefaults, hk, if_true]
  have k1 : "m" ∈ multiNames ∧ "n_sa" ∈ multiNames ∧ "n_predictors" ∈ multiNames ∧ "periodicity" ∈ multiNames ∧ "optimize_submodels_hyperpars" ∈ multiNames ∧ "target_name" ∈ multiNames := by
    simp [multiNames, multiOwn, statefulNames]
  have d1 : multiDefault "m" = .num 24 ∧ multiDefault "n_sa" = .num 1 ∧ multiDefault "n_predictors" = .num 4 ∧ multiDefault "periodicity" = .null ∧
      multiDefault "optimize_submodels_hyperpars" = .bool true ∧ multiDefault "target_name" = .str "target" := by decide +kernel
  rw [vm _ k1.1, d1.1] at h1
  have h2' := h2
  rw [vm _ k1.2.1, d1.2.1] at h2
  rw [vm _ k1.2.2.1, d1.2.2.1] at h3
  have h4' : if (d "periodicity").getD .null = .null then p = nsa else natOf (d "periodicity") = some p := by
    unfold periodOf at h4
    rw [vm _ k1.2.2.2.1, d1.2.2.2.1] at h4
    split
    · next hc => rw [if_pos (by rw [hc]), h2'] at h4; exact (Option.some.inj h4).symm
    · next hc =>
      rw [if_neg (by simpa using hc)] at h4
      cases hd : d "periodicity" with
      | none => rw [hd] at hc; exact absurd rfl hc
      | some x => rw [hd] at h4; exact h4
  unfold experts at h7
  simp only at h7
  obtain ⟨hl, he⟩ := Hybrid.mapM_inv _ _ _ h7
  refine ⟨m, nsa, n, p, h1, h2, h3, h4', h5, ?_, fun i e hi => ?_⟩
  · rw [hl, C160_windows]; simp
  · have hlt : i < (windows (lin m n) n nsa p).length := by rw [← hl]; exact (List.getElem?_eq_some_iff.1 hi).1
    obtain ⟨e', he1, he2⟩ := he i _ (List.getElem?_eq_getElem hlt)
    rw [hi] at he2
    cases he2
    obtain ⟨b1, -, -, b4⟩ := build_ok base _ e he1
    obtain ⟨s1, -, -, -, -, s6⟩ := stateful_ok _ o h6
    have si_st : ∀ k ∈ statefulNames, k ≠ "nodes_at_step" → k ≠ "targets_names" → o.init k = some ((d k).getD (multiDefault k)) := by
      intro k hk hk1 hk2
      rw [(s1 k hk hk1 hk2).2]
      have hkm : k ∈ multiNames := List.mem_append_left _ hk
      congr 1
      simp only [Dict.update, Dict.named, hk, if_true, vm k hkm, Option.some_or, Option.getD_some]
    have si_own : ∀ k ∈ multiOwn, k ∉ statefulNames → o.init k = none := by
      intro k hk hk1
      rw [(s6 k hk1).2]
      have hkm : k ∈ multiNames := List.mem_append_right _ hk
      simp only [Dict.update, Dict.named, hk1, if_false, Dict.rest, hkm, if_true, Option.none_or]
    have si_ext : ∀ k, k ∉ multiNames → o.init k = d k := by
      intro k hk
      have hk1 : k ∉ statefulNames := fun hc => hk (List.mem_append_left _ hc)
      rw [(s6 k hk1).2]
      simp only [Dict.update, Dict.named, hk1, if_false, Dict.rest, hk, Option.none_or]
    have hset : ∀ k, k ≠ "m" → k ≠ "verbose" → k ≠ "optimize_hyperpars" →
        ((subInit o.init ((v "optimize_submodels_hyperpars").getD .null)).set "m" (.num ((windows (lin m n) n nsa p)[i] : ℕ))) k = o.init k := by
      intro k q1 q2 q3
      simp only [subInit, Dict.set, q1, q2, q3, if_false]
    have nn : ∀ k, k ∈ base.names → k ≠ "nodes_at_step" → k ≠ "targets_names" → k ≠ "periodicity" → k ≠ "m" → k ≠ "verbose" → k ≠ "optimize_hyperpars" →
        e.attrs k = some ((o.init k).getD (base.default k)) := by
      intro k q0 q1 q2 q3 q4 q5 q6
      rw [b1 k q0 q1 q2 q3, hset k q4 q5 q6]
    have nsaE : e.attrs "n_sa" = some ((d "n_sa").getD (.num 1)) := by
      rw [nn "n_sa" (by cases base <;> simp [Pred.names, statefulNames]) (by decide +kernel) (by decide +kernel) (by decide +kernel) (by decide +kernel) (by decide +kernel) (by decide +kernel),
        si_st "n_sa" (by simp [statefulNames]) (by decide +kernel) (by decide +kernel), d1.2.1]
      rfl
    refine ⟨⟨_, List.getElem?_eq_getElem hlt, ?_⟩, ?_, ?_, ?_, nsaE, ?_, ?_, ?_, ?_⟩
    · rw [b1 "m" (by cases base <;> simp [Pred.names, statefulNames]) (by decide +kernel) (by decide +kernel) (by decide +kernel)]
      simp [Dict.set]
    · rw [nn "alpha" (by cases base <;> simp [Pred.names, Pred.own]) (by decide +kernel) (by decide +kernel) (by decide +kernel) (by decide +kernel) (by decide +kernel) (by decide +kernel),
        si_ext "alpha" (by simp [multiNames, statefulNames, multiOwn])]
      cases base <;> rfl
    · rw [nn "omega" (by cases base <;> simp [Pred.names, Pred.own]) (by decide +kernel) (by decide +kernel) (by decide +kernel) (by decide +kernel) (by decide +kernel) (by decide +kernel),
        si_ext "omega" (by simp [multiNames, statefulNames, multiOwn])]
      cases base <;> rfl
    · rw [nn "n_harmonics" (by cases base <;> simp [Pred.names, Pred.own]) (by decide +kernel) (by decide +kernel) (by decide +kernel) (by decide +kernel) (by decide +kernel) (by decide +kernel),
        si_ext "n_harmonics" (by simp [multiNames, statefulNames, multiOwn])]
      cases base <;> rfl
    · rw [nn "target_name" (by cases base <;> simp [Pred.names, statefulNames]) (by decide +kernel) (by decide +kernel) (by decide +kernel) (by decide +kernel) (by decide +kernel) (by decide +kernel),
        si_st "target_name" (by simp [statefulNames]) (by decide +kernel) (by decide +kernel), d1.2.2.2.2.2]
      rfl
    · rw [b1 "optimize_hyperpars" (by cases base <;> simp [Pred.names, statefulNames]) (by decide +kernel) (by decide +kernel) (by decide +kernel), vm _ k1.2.2.2.2.1, d1.2.2.2.2.1]
      simp [Dict.set, subInit]
    · rw [b4, hset "periodicity" (by decide +kernel) (by decide +kernel) (by decide +kernel), si_own "periodicity" (by simp [multiOwn]) (by simp [statefulNames])]
      simp only [Option.getD_none, if_true]
      rw [nsaE, hset "n_sa" (by decide +kernel) (by decide +kernel) (by decide +kernel), si_st "n_sa" (by simp [statefulNames]) (by decide +kernel) (by decide +kernel), d1.2.1]
      rfl
    · intro hb
      subst hb
      constructor
      · rw [nn "r" (by simp [Pred.names, Pred.own]) (by decide +kernel) (by decide +kernel) (by decide +kernel) (by decide +kernel) (by decide +kernel) (by decide +kernel),
          si_own "r" (by simp [multiOwn]) (by simp [statefulNames])]
        rfl
      · rw [nn "q" (by simp [Pred.names, Pred.own]) (by decide +kernel) (by decide +kernel) (by decide +kernel) (by decide +kernel) (by decide +kernel) (by decide +kernel),
          si_own "q" (by simp [multiOwn]) (by simp [statefulNames])]
        rfl

end PyF.Ctor
