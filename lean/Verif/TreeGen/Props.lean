import Verif.TreeGen.Lemmas
import Verif.TreeLoss.Props

namespace PyF.TreeGen
open PyF Scenred TreeBuild TreeInit

variable {m : ℕ}

/-- The scenarios of a tree as its paths read them: column `c` holds, at step `t`, the value of the node `idxs` names, which is a node of time `t`. -/
def PathsOf (o : Out) : Prop :=
  o.scens.length = o.idxs.length ∧ ∀ (c : ℕ) (col : List Int) (vs : List ℚ), o.idxs[c]? = some col → o.scens[c]? = some vs → col.length = vs.length ∧
    ∀ (t : ℕ) (v : ℚ), vs[t]? = some v → ∃ (i : ℕ) (x : Node ℚ), col[t]? = some (i : Int) ∧ o.tree[i]? = some x ∧ x.t = t ∧ x.v = v ∧ o.vals[i]? = some v

theorem pathsOf_describe {N : List (Node ℚ)} (h : WF N) (hne : N ≠ []) {o : Out} (ho : describe N = .ok o) : PathsOf o := by
  obtain ⟨ls, path, hp, _, _, hd⟩ := describe_spec N h hne
  rw [hd] at ho
  cases ho
  refine ⟨by simp, ?_⟩
  intro c col vs hc hv
  rw [List.getElem?_map] at hc hv
  cases hk : ls[c]? with
  | none => rw [hk] at hc; cases hc
  | some k =>
    rw [hk] at hc hv
    simp only [Option.map_some, Option.some.injEq] at hc hv
    subst hc hv
    refine ⟨by simp, ?_⟩
    intro t v ht
    rw [List.getElem?_map] at ht
    cases hi : (path k)[t]? with
    | none => rw [hi] at ht; cases ht
    | some i =>
      rw [hi] at ht
      simp only [Option.map_some, Option.some.injEq] at ht
      obtain ⟨x, hx, hxt, _⟩ := (hp k (List.mem_of_getElem? hk)).2 t i hi
      have hv : (N.map (·.v)).getD i 0 = x.v := by rw [List.getD_eq_getElem?_getD, List.getElem?_map, hx]; rfl
      refine ⟨i, x, by simp [hi], hx, hxt, by rw [← ht, hv], ?_⟩
      rw [List.getElem?_map, hx, ← ht, hv]
      rfl

/-- `QuantileTree.gen_tree` from the tree it works on. -/
theorem quantileTree_spec (prog : Prog) (T : ℕ) (scens : ℕ → Fin m → ℚ) (call own : Option (List ℕ)) (start : Option (List (Node ℚ))) (N : List (Node ℚ))
    (hN : chooseTree genTree prog m T call own start = .ok N) (hwf : WF N) (hne : N ≠ []) :
    ∃ o vs, quantileTree prog T scens call own start = .ok o ∧ initVals N T scens = .ok vs ∧ vs.length = N.length ∧ o.vals = vs ∧ o.tree = replaceVar N vs ∧
      describe (replaceVar N vs) = .ok o ∧ (∃ r, retrieve N false = .ok r ∧ o.idxs = r.1) := by
  obtain ⟨st, h1, _⟩ := times_total (N := N) hwf (scens := scens) (T - 1)
  obtain ⟨vs, hvs, hl⟩ : ∃ vs, initVals N T scens = .ok vs ∧ vs.length = N.length := ⟨_, by unfold initVals; rw [h1], by simp⟩
  have hsh := replaceVar_shape N vs hl
  have hwf' := sameShape_wf hsh.symm hwf
  have hne' : replaceVar N vs ≠ [] := by
    intro h0
    have := replaceVar_length N vs
    rw [h0] at this
    exact hne (List.length_eq_zero_iff.1 this.symm)
  obtain ⟨ls, path, _, _, hr, hd⟩ := describe_spec N hwf hne
  obtain ⟨ls', path', _, _, hr', hd'⟩ := describe_spec _ hwf' hne'
  rw [hsh.retrieve, hr] at hr'
  simp only [Except.ok.injEq, Prod.mk.injEq] at hr'
  refine ⟨_, vs, ?_, hvs, hl, ?_, rfl, hd'.trans rfl, _, hr, hr'.1.symm⟩
  · unfold quantileTree baseGen
    rw [hN]
    simp only
    rw [hd]
    simp only [initOut]
    rw [hvs]
    simp only
    rw [hd']
    simp only
    rw [hr'.1]
  · exact replaceVar_vals N vs hl

/-- C234: what a start tree contributes to a `QuantileTree`: its shape, and the values of the nodes behind the horizon of the scenarios. Two start trees of the same shape give the
same paths and, for every node within the horizon, the same value — whatever values they held and whatever numbers of nodes are asked for; nodes behind the horizon keep theirs.
The paths returned are those of the tree returned. `ScenredTree` does not look at the start tree at all. -/
theorem C234_start_tree_shape_only (prog prog' : Prog) (T : ℕ) (hT : 1 ≤ T) (scens : ℕ → Fin m → ℚ) (call own call' own' : Option (List ℕ)) (A B : List (Node ℚ)) (hA : WF A)
    (hne : A ≠ []) (hs : A.map (fun x => (x.t, x.parent)) = B.map (fun x => (x.t, x.parent))) :
    (∃ a b, quantileTree prog T scens call own (some A) = .ok a ∧ quantileTree prog' T scens call' own' (some B) = .ok b ∧ a.idxs = b.idxs ∧ a.tree.length = A.length ∧
      PathsOf a ∧
      (∀ (k : ℕ) (x y : Node ℚ), A[k]? = some x → a.tree[k]? = some y → y.t = x.t ∧ y.parent = x.parent ∧ y.p = x.p ∧
        (x.t < T → ∃ z, b.tree[k]? = some z ∧ z.v = y.v) ∧ (T ≤ x.t → y.v = x.v)) ∧
      ((∀ x ∈ A, x.t < T) → a.vals = b.vals ∧ a.scens = b.scens)) ∧
    ∀ (mk : List ℕ → Except PyErr (List (Node ℚ))) (n : ℕ), scenredTree mk prog n T call own (some A) = scenredTree mk prog n T call own none := by
  refine ⟨?_, fun _ _ => rfl⟩
  have hsh : SameShape A B := hs
  have hB := sameShape_wf hsh hA
  have hneB : B ≠ [] := by rintro rfl; exact hne (List.length_eq_zero_iff.1 hsh.length)
  obtain ⟨a, va, a1, a2, a3, a4, a5, a6, ra, a7, a8⟩ := quantileTree_spec prog T scens call own (some A) A rfl hA hne
  obtain ⟨b, vb, b1, b2, b3, b4, b5, b6, rb, b7, b8⟩ := quantileTree_spec prog' T scens call' own' (some B) B rfl hB hneB
  obtain ⟨va', vb', h1, h2, _, _, h5⟩ := initVals_shape hsh hA T hT scens
  rw [a2] at h1
  rw [b2] at h2
  cases h1
  cases h2
  have hidx : a.idxs = b.idxs := by
    rw [hsh.retrieve, b7] at a7
    cases a7
    rw [a8, b8]
  have hwa := sameShape_wf (replaceVar_shape A va a3).symm hA
  have hnea : replaceVar A va ≠ [] := by
    intro h0
    have := replaceVar_length A va
    rw [h0] at this
    exact hne (List.length_eq_zero_iff.1 this.symm)
  refine ⟨a, b, a1, b1, hidx, by rw [a5, replaceVar_length], pathsOf_describe hwa hnea a6, ?_, ?_⟩
  · intro k x y hk hy
    obtain ⟨v, hv, hx⟩ := replaceVar_get A va a3 k x hk
    rw [a5, hx] at hy
    cases hy
    refine ⟨rfl, rfl, rfl, ?_, ?_⟩
    · intro ht
      have h6 := (h5 k x hk).1 ht
      have hlt : k < B.length := by rw [← hsh.length]; exact (List.getElem?_eq_some_iff.1 hk).1
      obtain ⟨w, hw, hz⟩ := replaceVar_get B vb b3 k _ (List.getElem?_eq_getElem hlt)
      rw [hv, hw] at h6
      cases h6
      rw [← b5] at hz
      exact ⟨_, hz, rfl⟩
    · intro ht
      have h6 := (h5 k x hk).2 ht
      rw [hv] at h6
      cases h6
      rfl
  · intro hall
    have hvab : va = vb := by
      apply List.ext_getElem?
      intro k
      cases hk : A[k]? with
      | none =>
        have : A.length ≤ k := List.getElem?_eq_none_iff.1 hk
        have hl := hsh.length
        rw [List.getElem?_eq_none (by omega), List.getElem?_eq_none (by omega)]
      | some x => exact (h5 k x hk).1 (hall x (List.mem_of_getElem? hk))
    refine ⟨by rw [a4, b4, hvab], ?_⟩
    have htab : ∀ {M : List (Node ℚ)} {o : Out}, describe M = .ok o → table (M.map (·.v)) o.idxs = .ok o.scens := by
      intro M o ho
      unfold describe at ho
      cases hr : retrieve M false with
      | error e => rw [hr] at ho; cases ho
      | ok r =>
        rw [hr] at ho
        simp only at ho
        cases ht : table (M.map (·.v)) r.1 with
        | error e => rw [ht] at ho; cases ho
        | ok sc => rw [ht] at ho; cases ho; exact ht
    have ta := htab a6
    have tb := htab b6
    rw [replaceVar_vals A va a3] at ta
    rw [replaceVar_vals B vb b3, ← hvab, ← hidx, ta] at tb
    exact Except.ok.inj tb

/-- C235: every value of a `QuantileTree` lies between two scenarios of the step **before** its own (for the root: of the first step). Hence if the scenarios rise, from every step to the
next by any amount that separates them, every value after the root lies below all the scenarios at its step, and no path of the tree can reach them. -/
theorem C235_range_one_step_late (prog : Prog) (T : ℕ) (scens : ℕ → Fin m → ℚ) (hm : 1 ≤ m) (call own : Option (List ℕ)) (start : Option (List (Node ℚ))) (N : List (Node ℚ))
    (hN : chooseTree genTree prog m T call own start = .ok N) (hwf : WF N) (hne : N ≠ []) :
    ∃ o, quantileTree prog T scens call own start = .ok o ∧ PathsOf o ∧
      (∀ x ∈ o.tree, x.t < T ∨ x.t = 0 → (∃ s, scens (x.t - 1) s ≤ x.v) ∧ ∃ s, x.v ≤ scens (x.t - 1) s) ∧
      ((∀ t s s', t + 1 < T → scens t s < scens (t + 1) s') → ∀ (c : ℕ) (vs : List ℚ) (t : ℕ) (v : ℚ), o.scens[c]? = some vs → vs[t]? = some v → 1 ≤ t → t < T → ∀ s, v < scens t s) := by
  obtain ⟨o, vs, h1, h2, h3, h4, h5, h6, r, h7, h8⟩ := quantileTree_spec prog T scens call own start N hN hwf hne
  obtain ⟨vs', g1, _, g2⟩ := C53_values_one_step_late N hwf hm T scens
  rw [h2] at g1
  cases g1
  have hwf' := sameShape_wf (replaceVar_shape N vs h3).symm hwf
  have hne' : replaceVar N vs ≠ [] := by
    intro h0
    have := replaceVar_length N vs
    rw [h0] at this
    exact hne (List.length_eq_zero_iff.1 this.symm)
  have hp := pathsOf_describe hwf' hne' h6
  have hwithin : ∀ (f : List (Fin m)) (row : Fin m → ℚ) (q : ℚ), f ≠ [] → 0 ≤ q → q ≤ 1 → (∃ s, row s ≤ Quantile.quantileVal (f.map row) q) ∧ ∃ s, Quantile.quantileVal (f.map row) q ≤ row s := by
    intro f row q hf h0 h1
    have hfm : f.map row ≠ [] := by simpa using hf
    obtain ⟨⟨e, he, hle⟩, ⟨e', he', hle'⟩⟩ := Quantile.within_of_isEmpirical hfm h0 h1 (Quantile.quantileVal_isEmpirical hfm h0 h1)
    obtain ⟨s, _, rfl⟩ := List.mem_map.1 he
    obtain ⟨s', _, rfl⟩ := List.mem_map.1 he'
    exact ⟨⟨s, hle⟩, ⟨s', hle'⟩⟩
  have hrange : ∀ x ∈ o.tree, x.t < T ∨ x.t = 0 → (∃ s, scens (x.t - 1) s ≤ x.v) ∧ ∃ s, x.v ≤ scens (x.t - 1) s := by
    intro y hy ht
    rw [h5] at hy
    obtain ⟨k, hk⟩ := List.mem_iff_getElem?.1 hy
    have hlt : k < N.length := by rw [← replaceVar_length N vs]; exact (List.getElem?_eq_some_iff.1 hk).1
    obtain ⟨v, hv, hx⟩ := replaceVar_get N vs h3 k _ (List.getElem?_eq_getElem hlt)
    rw [hk] at hx
    cases hx
    simp only at ht ⊢
    set x := N[k] with hxdef
    have hkx : N[k]? = some x := List.getElem?_eq_getElem hlt
    rcases Nat.eq_zero_or_pos x.t with h0 | h0
    · have := (g2 k x hkx).1 h0
      rw [hv] at this
      cases this
      rw [h0]
      exact hwithin _ _ _ (by intro h; have := congrArg List.length h; simp at this; omega) (by norm_num) (by norm_num)
    · obtain ⟨j, y, ch, i, hj, hxt, hs, hmem, hcne, hi⟩ := parent_children hwf hkx h0
      obtain ⟨f, hf, hvv⟩ := (g2 j y hj).2 (by omega) ch hs hmem hcne
      have := hvv i k hi
      rw [hv] at this
      cases this
      rw [show x.t - 1 = y.t by omega]
      have hil : (i : ℚ) < ch.length := by exact_mod_cast (List.getElem?_eq_some_iff.1 hi).1
      exact hwithin _ _ _ hf (by positivity) (by rw [div_le_one (by positivity)]; linarith)
  refine ⟨o, h1, hp, hrange, ?_⟩
  intro hrise c col t v hc hv h1t htT s
  have hcl : c < o.idxs.length := by rw [← hp.1]; exact (List.getElem?_eq_some_iff.1 hc).1
  obtain ⟨_, h9⟩ := hp.2 c _ col (List.getElem?_eq_getElem hcl) hc
  obtain ⟨i, x, _, hx, hxt, hxv, _⟩ := h9 t v hv
  obtain ⟨_, s', hs'⟩ := hrange x (List.mem_of_getElem? hx) (Or.inl (by omega))
  rw [hxv, hxt] at hs'
  have := hrise (t - 1) s' s (by omega)
  rw [show t - 1 + 1 = t by omega] at this
  exact lt_of_le_of_lt hs' this

theorem addChildren_zero (t : ℕ) (pr : ℚ) (c : ℕ) (ps : List ℕ) : ∀ N : List (Node ℚ), (∀ x ∈ N, x.v = 0) → ∀ x ∈ (addChildren t pr c ps N).1, x.v = 0 := by
  induction ps with
  | nil => intro N h; exact h
  | cons p ps ih =>
    intro N h
    simp only [addChildren]
    apply ih
    intro x hx
    rcases List.mem_append.1 hx with hx | hx
    · exact h x hx
    · rw [(List.mem_replicate.1 hx).2]

theorem addLevels_zero (ms : List ℕ) : ∀ (t : ℕ) (N : List (Node ℚ)) (names : List ℕ) (prev : ℕ) (M : List (Node ℚ)), addLevels t N names prev ms = .ok M → (∀ x ∈ N, x.v = 0) → ∀ x ∈ M, x.v = 0 := by
  induction ms with
  | nil => intro t N names prev M h hN; cases h; exact hN
  | cons a ms ih =>
    intro t N names prev M h hN
    simp only [addLevels] at h
    split at h
    · cases h
    · split at h
      · cases h
      · exact ih _ _ _ _ M h (addChildren_zero _ _ _ _ N hN)

theorem genTree_zero (ns : List ℕ) (N : List (Node ℚ)) (h : genTree ns = .ok N) : ∀ x ∈ N, x.v = 0 := by
  unfold genTree at h
  cases ns with
  | nil => cases h
  | cons a ms =>
    simp only at h
    cases hl : addLevels 1 [{ t := 0, p := 1, v := 0, parent := none }] [0] a ms with
    | error e => rw [hl] at h; cases h
    | ok M =>
      rw [hl] at h
      simp only [Except.ok.injEq] at h
      subst h
      intro x hx
      unfold setProb at hx
      obtain ⟨⟨y, k⟩, hy, rfl⟩ := List.mem_map.1 hx
      have : y ∈ M := by
        obtain ⟨hk, he⟩ := List.mem_zipIdx' hy
        rw [he]
        exact List.getElem_mem hk
      exact addLevels_zero ms 1 _ _ _ M hl (by simp) y this

/-- C236: any text but `'quantiles'` for the initial values gives, on the quantile base tree, a tree of zeros: with `'zero'` because it is asked for, with any other text silently. All values
and all paths are zero. -/
theorem C236_other_texts_mean_zero (prog : Prog) (T : ℕ) (scens : ℕ → Fin m → ℚ) (call own : Option (List ℕ)) (o : Out) (ho : baseGen genTree prog m T call own none = .ok o) :
    initOut .other T scens o = .ok o ∧ initOut .zero T scens o = .ok o ∧ (∀ v ∈ o.vals, v = 0) ∧ (∀ x ∈ o.tree, x.v = 0) ∧ ∀ c ∈ o.scens, ∀ v ∈ c, v = 0 := by
  unfold baseGen at ho
  cases hc : chooseTree genTree prog m T call own none with
  | error e => rw [hc] at ho; cases ho
  | ok N =>
    rw [hc] at ho
    simp only at ho
    have hz : ∀ x ∈ N, x.v = 0 := by
      unfold chooseTree at hc
      simp only at hc
      cases hi : initNodes prog m T call own with
      | error e => rw [hi] at hc; cases hc
      | ok ns => rw [hi] at hc; exact genTree_zero ns N hc
    unfold describe at ho
    cases hr : retrieve N false with
    | error e => rw [hr] at ho; cases ho
    | ok r =>
      rw [hr] at ho
      simp only at ho
      cases ht : table (N.map (·.v)) r.1 with
      | error e => rw [ht] at ho; cases ho
      | ok sc =>
        rw [ht] at ho
        simp only [Except.ok.injEq] at ho
        subst ho
        have hv : ∀ v ∈ N.map (·.v), v = 0 := by
          intro v hv
          obtain ⟨x, hx, rfl⟩ := List.mem_map.1 hv
          exact hz x hx
        have hsc : ∀ c ∈ sc, ∀ v ∈ c, v = 0 := by
          have hrow : ∀ (ps : List ℕ) (c : List ℚ), takeRows (N.map (·.v)) ps = .ok c → ∀ v ∈ c, v = 0 := by
            intro ps
            induction ps with
            | nil => intro c h v hv'; cases h; cases hv'
            | cons p ps ih =>
              intro c h v hv'
              simp only [takeRows] at h
              cases hp : (N.map (·.v))[p]? with
              | none => rw [hp] at h; cases h
              | some w =>
                rw [hp] at h
                cases hps : takeRows (N.map (·.v)) ps with
                | error e => rw [hps] at h; cases h
                | ok c' =>
                  rw [hps] at h
                  simp only [Except.ok.injEq] at h
                  subst h
                  rcases List.mem_cons.1 hv' with rfl | hv'
                  · exact hv _ (List.mem_of_getElem? hp)
                  · exact ih c' hps v hv'
          have hall : ∀ (cols : List (List Int)) (sc : List (List ℚ)), table (N.map (·.v)) cols = .ok sc → ∀ c ∈ sc, ∀ v ∈ c, v = 0 := by
            intro cols
            induction cols with
            | nil => intro sc h c hc'; cases h; cases hc'
            | cons col cols ih =>
              intro sc h c hc'
              unfold table at h ih
              rw [List.mapM_cons] at h
              cases h1 : takeRows (N.map (·.v)) (col.map Int.toNat) with
              | error e => rw [h1] at h; cases h
              | ok c1 =>
                rw [h1] at h
                cases h2 : cols.mapM (fun col => takeRows (N.map (·.v)) (col.map Int.toNat)) with
                | error e => rw [h2] at h; cases h
                | ok cs =>
                  rw [h2] at h
                  cases h
                  rcases List.mem_cons.1 hc' with rfl | hc'
                  · exact hrow _ _ h1
                  · exact ih cs h2 c hc'
          exact hall r.1 sc ht
        refine ⟨rfl, ?_, hv, hz, hsc⟩
        have hid : ∀ l : List ℚ, (∀ v ∈ l, v = 0) → l.map (fun _ => (0 : ℚ)) = l := by
          intro l hl
          conv_rhs => rw [← List.map_id l]
          exact List.map_congr_left (fun v h => (hl v h).symm)
        simp only [initOut]
        congr 2
        · rw [hid _ hv]
          unfold replaceVar
          apply List.ext_getElem?
          intro k
          rw [List.getElem?_map, List.getElem?_zipIdx]
          cases hk : N[k]? with
          | none => rfl
          | some x => simp [List.getElem?_map, hk]
        · conv_rhs => rw [← List.map_id sc]
          exact List.map_congr_left (fun c h => hid c (hsc c h))
        · exact hid _ hv

end PyF.TreeGen
