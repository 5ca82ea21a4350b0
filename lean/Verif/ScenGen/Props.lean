import Verif.ScenGen.Lemmas

namespace PyF.ScenGen
open PyF

/-! ### C54: interpolation -/

section
variable {K : Type} [Field K] [LinearOrder K] [IsStrictOrderedRing K]

/-- C54 (interpolation): for increasing levels the value at a level is its quantile; between two consecutive levels it is the weighted mean of
their quantiles; below the first and above the last level the line of the first and last pair continues. -/
theorem C54_interpolation (xs ys : List K) (hx : xs.Pairwise (· < ·)) (hl : ys.length = xs.length) (h2 : 2 ≤ xs.length) :
    (∀ (i : Nat) (x y : K), xs[i]? = some x → ys[i]? = some y → interp xs ys x = y) ∧
      (∀ (i : Nat) (x y x' y' u : K), xs[i]? = some x → ys[i]? = some y → xs[i + 1]? = some x' → ys[i + 1]? = some y' → (i = 0 ∨ x ≤ u) → (i + 2 = xs.length ∨ u ≤ x') →
        interp xs ys u * (x' - x) = y * (x' - u) + y' * (u - x)) := by
  have hinc := inc_zip (ys := ys) hx
  have hlen : (xs.zip ys).length = xs.length := by rw [List.length_zip]; omega
  constructor
  · intro i x y h1 h3
    rw [interp_core, sort_inc hinc]
    exact core_node hinc (by omega) i (x, y) (zip_get h1 h3)
  · intro i x y x' y' u h1 h3 h4 h5 hlo hhi
    rw [interp_core, sort_inc hinc]
    have hxx : x < x' := inc_get hinc (zip_get h1 h3) (zip_get h4 h5) (by omega)
    have hline : core (xs.zip ys) u = line (x, y) (x', y') u := by
      by_cases hux : x < u ∨ i = 0
      · refine core_bracket hinc i _ _ (zip_get h1 h3) (zip_get h4 h5) u ?_ (by rw [hlen]; exact hhi)
        rcases hux with h | h
        · right; exact h
        · left; exact h
      · rw [not_or, not_lt] at hux
        have : x = u := by
          rcases hlo with h | h
          · exact absurd h hux.2
          · exact le_antisymm h hux.1
        subst this
        exact core_segment hinc i _ _ (zip_get h1 h3) (zip_get h4 h5) x (le_refl _) (le_of_lt hxx)
    rw [hline]
    unfold line
    have : x' - x ≠ 0 := by intro h; rw [sub_eq_zero] at h; rw [h] at hxx; exact lt_irrefl _ hxx
    field_simp
    ring

/-- C54 (monotone): if the quantiles do not cross, the scenario value does not decrease with the rank. -/
theorem C54_monotone (xs ys : List K) (hx : xs.Pairwise (· < ·)) (hy : ys.Pairwise (· ≤ ·)) (hl : ys.length = xs.length) (h2 : 2 ≤ xs.length) (u v : K) (huv : u ≤ v) :
    interp xs ys u ≤ interp xs ys v := by
  have hinc := inc_zip (ys := ys) hx
  rw [interp_core, interp_core, sort_inc hinc]
  exact core_mono hinc (by rw [List.length_zip]; omega) (mono_zip hy) huv

/-- C54 (between): for ranks between the extreme levels the value is between the extreme quantiles. -/
theorem C54_between (xs ys : List K) (hx : xs.Pairwise (· < ·)) (hy : ys.Pairwise (· ≤ ·)) (hl : ys.length = xs.length) (h2 : 2 ≤ xs.length) (u x0 x1 y0 y1 : K)
    (e1 : xs.head? = some x0) (e2 : xs.getLast? = some x1) (e3 : ys.head? = some y0) (e4 : ys.getLast? = some y1) (h3 : x0 ≤ u) (h4 : u ≤ x1) :
    y0 ≤ interp xs ys u ∧ interp xs ys u ≤ y1 := by
  obtain ⟨hn, _⟩ := C54_interpolation xs ys hx hl h2
  have a := hn 0 x0 y0 (by rw [← List.head?_eq_getElem?]; exact e1) (by rw [← List.head?_eq_getElem?]; exact e3)
  have b := hn (xs.length - 1) x1 y1 (by rw [← List.getLast?_eq_getElem?]; exact e2) (by rw [← hl, ← List.getLast?_eq_getElem?]; exact e4)
  constructor
  · rw [← a]; exact C54_monotone xs ys hx hy hl h2 _ _ h3
  · rw [← b]; exact C54_monotone xs ys hx hy hl h2 _ _ h4

omit [IsStrictOrderedRing K] in
/-- C54 (order of the levels): permuting the levels together with their quantiles changes nothing. -/
theorem C54_order_of_levels (xs ys xs' ys' : List K) (hp : (xs.zip ys).Perm (xs'.zip ys')) (hd : (xs.zip ys).Pairwise (fun a b => a.1 ≠ b.1)) (u : K) :
    interp xs ys u = interp xs' ys' u := by
  rw [interp_core, interp_core]
  congr 1
  have p1 := (List.perm_insertionSort (fun (a b : K × K) => a.1 ≤ b.1) (xs.zip ys))
  have p2 := (List.perm_insertionSort (fun (a b : K × K) => a.1 ≤ b.1) (xs'.zip ys'))
  have key : ∀ a ∈ xs.zip ys, ∀ b ∈ xs.zip ys, a.1 = b.1 → a = b := by
    intro a ha b hb hab
    by_contra hne
    have hall : a = b ∨ a.1 ≠ b.1 := by
      obtain ⟨i, hi⟩ := List.mem_iff_getElem.1 ha
      obtain ⟨j, hj⟩ := List.mem_iff_getElem.1 hb
      obtain ⟨hi, rfl⟩ := hi
      obtain ⟨hj, rfl⟩ := hj
      rcases lt_trichotomy i j with h | h | h
      · exact Or.inr (List.pairwise_iff_getElem.1 hd i j hi hj h)
      · subst h; exact Or.inl rfl
      · exact Or.inr (Ne.symm (List.pairwise_iff_getElem.1 hd j i hj hi h))
    rcases hall with h | h
    · exact hne h
    · exact h hab
  refine List.Perm.eq_of_pairwise (le := fun (a b : K × K) => a.1 ≤ b.1) ?_ ?_ ?_ (p1.trans (hp.trans p2.symm))
  · intro a b ha hb h1 h2
    exact key a (p1.mem_iff.1 ha) b (hp.mem_iff.2 (p2.mem_iff.1 hb)) (le_antisymm h1 h2)
  · exact List.pairwise_insertionSort (r := fun (a b : K × K) => a.1 ≤ b.1) _
  · exact List.pairwise_insertionSort (r := fun (a b : K × K) => a.1 ≤ b.1) _

/-! ### Scenarios -/

/-- Quantiles of the right shape: per row, `steps` vectors of as many quantiles as levels. -/
def Shaped (levels : List K) (steps : Nat) (quantiles : List (List (List K))) : Prop := ∀ q ∈ quantiles, q.length = steps ∧ ∀ v ∈ q, v.length = levels.length

omit [IsStrictOrderedRing K] in
theorem interpRows_ok (levels : List K) (steps : Nat) (u : Nat → Nat → Nat → K) : ∀ (qs : List (List (List K))) (t : Nat), Shaped levels steps qs →
    ∃ fs, interpRows levels steps u t qs = .ok fs ∧ fs.length = qs.length ∧ ∀ (j : Nat) (q : List (List K)), qs[j]? = some q → ∃ f, fs[j]? = some f ∧ ∀ s k, f s k = interp levels (q.getD s []) (u (t + j) s k) := by
  intro qs
  induction qs with
  | nil => intro t _; exact ⟨[], rfl, rfl, fun j q h => by simp at h⟩
  | cons q qs ih =>
    intro t hs
    obtain ⟨fs, e1, e2, e3⟩ := ih (t + 1) (fun q hq => hs q (by simp [hq]))
    obtain ⟨a1, a2⟩ := hs q (by simp)
    have hi : interpScens levels q steps (u t) = .ok (fun s k => interp levels (q.getD s []) (u t s k)) := by
      unfold interpScens
      rw [if_neg (by
        intro h
        rw [List.any_eq_true] at h
        obtain ⟨v, hv, hne⟩ := h
        exact (of_decide_eq_true hne) (a2 v hv)), if_neg (by omega), if_neg (by omega)]
    refine ⟨(fun s k => interp levels (q.getD s []) (u t s k)) :: fs, ?_, by simp [e2], ?_⟩
    · unfold interpRows
      rw [hi]
      simp only
      rw [e1]
    · intro j q' hj
      cases j with
      | zero =>
        rw [List.getElem?_cons_zero] at hj
        cases hj
        exact ⟨_, rfl, fun s k => rfl⟩
      | succ j =>
        rw [List.getElem?_cons_succ] at hj
        obtain ⟨f, g1, g2⟩ := e3 j q' hj
        refine ⟨f, by rw [List.getElem?_cons_succ]; exact g1, ?_⟩
        intro s k
        rw [g2]
        congr 2
        omega

omit [IsStrictOrderedRing K] in
/-- C54 (scenarios): for quantiles of the right shape the scenarios of a row are the interpolated quantiles of the row at the ranks of the row, plus the
noise drawn last; with an additional node they are preceded by the initial observation (0 if none is given) plus its noise. -/
theorem C54_scenarios (levels : List K) (steps : Nat) (quantiles : List (List (List K))) (hs : Shaped levels steps quantiles) (additional : Bool) (obs : Option (List K))
    (ho : ∀ l, obs = some l → l.length = quantiles.length) (u : Nat → Nat → Nat → K) (ini : Nat → Nat → K) (noise : Nat → Nat → Nat → K) :
    ∃ out, predictScenarios quantiles.length levels steps steps levels.length quantiles additional obs (.ok u) ini noise = .ok out ∧ out.length = quantiles.length ∧
      ∀ (t : Nat) (q : List (List K)), quantiles[t]? = some q → ∃ sc, out[t]? = some sc ∧ sc.rows = (if additional then steps + 1 else steps) ∧
        ∀ (s k : Nat) (v : List K), q[s]? = some v → sc.val (if additional then s + 1 else s) k = interp levels v (u t s k) + noise t (if additional then s + 1 else s) k ∧
          (additional = true → ∀ o, (obs.getD (List.replicate quantiles.length 0))[t]? = some o → sc.val 0 k = o + ini t k + noise t 0 k) := by
  obtain ⟨fs, e1, e2, e3⟩ := interpRows_ok levels steps u quantiles 0 hs
  unfold predictScenarios sampleScenarios
  rw [if_neg (by simp), if_neg (by simp)]
  simp only
  have hobs : (obs.getD (List.replicate quantiles.length 0)).length = quantiles.length := by
    cases obs with
    | none => simp
    | some l => exact ho l rfl
  cases additional with
  | true =>
    simp only [if_true]
    rw [if_neg (by simpa using hobs), e1]
    simp only
    refine ⟨_, rfl, by simp [e2], ?_⟩
    intro t q hq
    obtain ⟨f, g1, g2⟩ := e3 t q hq
    refine ⟨_, by rw [List.getElem?_mapIdx, g1]; rfl, rfl, ?_⟩
    intro s k v hv
    constructor
    · simp only [Nat.succ_ne_zero, if_false, Nat.add_sub_cancel]
      rw [g2, List.getD_eq_getElem?_getD, hv, Nat.zero_add]
      rfl
    · intro _ o hoo
      simp only [if_true]
      rw [List.getD_eq_getElem?_getD, hoo]
      rfl
  | false =>
    simp only [Bool.false_eq_true, if_false]
    rw [e1]
    simp only
    refine ⟨_, rfl, by simp [e2], ?_⟩
    intro t q hq
    obtain ⟨f, g1, g2⟩ := e3 t q hq
    refine ⟨_, by rw [List.getElem?_mapIdx, g1]; rfl, rfl, ?_⟩
    intro s k v hv
    constructor
    · simp only
      rw [g2, List.getD_eq_getElem?_getD, hv, Nat.zero_add]
      rfl
    · intro h; exact absurd h (by simp)

omit [IsStrictOrderedRing K] in
/-- C102: with an additional node and at least two steps, `predict_scenarios` of a forecaster always fails, although the scenarios were
sampled; without the additional node it returns what `ScenGen` returns. -/
theorem C102_additional_node_scenarios (nx : Nat) (levels : List K) (steps dim nq : Nat) (hst : 2 ≤ steps) (quantiles : List (List (List K)))
    (u : Except PyErr (Nat → Nat → Nat → K)) (ini : Nat → Nat → K) (noise : Nat → Nat → Nat → K) :
    (∃ e, forecasterScenarios nx levels steps dim nq quantiles true u ini noise = .error e) ∧
      forecasterScenarios nx levels steps dim nq quantiles false u ini noise = predictScenarios nx levels steps dim nq quantiles false none u ini noise := by
  unfold forecasterScenarios
  constructor
  · cases predictScenarios nx levels steps dim nq quantiles true none u ini noise with
    | error e => exact ⟨e, rfl⟩
    | ok out =>
      simp only [if_true]
      rw [if_neg (by omega)]
      exact ⟨_, rfl⟩
  · cases predictScenarios nx levels steps dim nq quantiles false none u ini noise with
    | error e => rfl
    | ok out => simp

omit [IsStrictOrderedRing K] in
/-- C106 (frames): a row of the frame of `predict_quantiles`, targets outer and quantiles inner, is read by `ScenGen.predict_scenarios` with the
roles exchanged: as many steps as quantiles and as many quantiles as targets. So it is refused unless there are as many targets as quantiles. -/
theorem C106_frame_layout (nx nt nq dim : Nat) (v : Nat → Nat → K) (row : Nat → K) (hrow : ∀ j k, j < nt → k < nq → row (j * nq + k) = v j k) (levels : List K) (hl : levels.length = nq)
    (quantiles : List (List (List K))) (additional : Bool) (obs : Option (List K)) (u : Except PyErr (Nat → Nat → Nat → K)) (ini : Nat → Nat → K) (noise : Nat → Nat → Nat → K) :
    (∀ i o, i < nq → o < nt → stackFrame nq row i o = v o i) ∧
      (nt ≠ nq → predictScenarios nx levels nq dim nt quantiles additional obs u ini noise = .error .assertionError) := by
  constructor
  · intro i o hi ho
    exact hrow o i ho hi
  · intro h
    unfold predictScenarios
    rw [if_pos (by omega)]

end

/-! ### C55: the copula samples -/

section
variable {K Cov : Type}

/-- C55: for rows with hours of the day, at least one step: sampling succeeds iff all the hours were seen in fitting and the number of scenarios is
not one; the sample of row `i`, step `s` and scenario `k` is the distribution function at the draw for this row (numbered among the rows of its
hour), scenario and step. -/
theorem C55_samples [Zero K] (Phi : K → K) (pars : Pars Cov) (rvs : Nat → Cov → Nat → Nat → Nat → Nat → Nat → K) (dim n : Nat) (hd : 1 ≤ dim) (hours : List Nat) (hh : ∀ h ∈ hours, h < 24)
    (hne : hours ≠ []) :
    ((∃ out, sample Phi pars rvs dim n hours = .ok out) ↔ n ≠ 1 ∧ ∀ h ∈ hours, pars h ≠ none) ∧
      (∀ out, sample Phi pars rvs dim n hours = .ok out → ∀ (i h : Nat) (cov : Cov), hours[i]? = some h → pars h = some cov → ∀ s k, s < dim → k < n →
        ∃ call, out i s k = Phi (rvs call cov (hours.count h) n ((hours.take i).count h) k s)) := by
  have hok : n ≠ 1 → (∀ h ∈ hours, pars h ≠ none) → _ := fun hn hp => sampleLoop_spec Phi pars rvs dim n hd hn hours (uniqueHours hours) 0 (fun _ _ _ => 0) (nodup_uniqueHours hours)
    (fun h h' => (mem_uniqueHours hh h).1 h') (fun h h' => hp h ((mem_uniqueHours hh h).1 h'))
  have hiff : (∃ out, sample Phi pars rvs dim n hours = .ok out) → n ≠ 1 ∧ ∀ h ∈ hours, pars h ≠ none := by
    rintro ⟨out, ho⟩
    have hp : ∀ h ∈ hours, pars h ≠ none := by
      intro h hm hp
      obtain ⟨e, he⟩ := sampleLoop_keyError Phi pars rvs dim n hours (uniqueHours hours) 0 (fun _ _ _ => 0) ⟨h, (mem_uniqueHours hh h).2 hm, hp⟩
      unfold sample at ho
      rw [he] at ho
      cases ho
    refine ⟨?_, hp⟩
    intro hn
    subst hn
    unfold sample at ho
    cases hu : uniqueHours hours with
    | nil =>
      obtain ⟨h, hm⟩ := List.exists_mem_of_ne_nil _ hne
      have := (mem_uniqueHours hh h).2 hm
      rw [hu] at this
      simp at this
    | cons h hs =>
      rw [hu] at ho
      have hm : h ∈ hours := (mem_uniqueHours hh h).1 (by rw [hu]; simp)
      obtain ⟨cov, hc⟩ := Option.ne_none_iff_exists'.1 (hp h hm)
      unfold sampleLoop at ho
      rw [hc] at ho
      simp only at ho
      rw [sampleHour_one _ dim hd] at ho
      cases ho
  refine ⟨⟨hiff, ?_⟩, ?_⟩
  · rintro ⟨hn, hp⟩
    obtain ⟨out, ho, _⟩ := hok hn hp
    exact ⟨out, ho⟩
  · intro out ho i h cov hi hcov s k hs hk
    obtain ⟨hn, hp⟩ := hiff ⟨out, ho⟩
    obtain ⟨out', ho', _, h3⟩ := hok hn hp
    unfold sample at ho
    rw [ho] at ho'
    cases ho'
    exact ⟨_, h3 i h cov hi ((mem_uniqueHours hh h).2 (List.mem_of_getElem? hi)) hcov s k hs hk⟩

/-- C55 (ranks): if the distribution function has values in [0,1], so have the samples. -/
theorem C55_ranks [Zero K] [One K] [LE K] (Phi : K → K) (hPhi : ∀ z, 0 ≤ Phi z ∧ Phi z ≤ 1) (pars : Pars Cov) (rvs : Nat → Cov → Nat → Nat → Nat → Nat → Nat → K) (dim n : Nat) (hd : 1 ≤ dim)
    (hours : List Nat) (hh : ∀ h ∈ hours, h < 24) (out : Nat → Nat → Nat → K) (ho : sample Phi pars rvs dim n hours = .ok out) :
    ∀ i s k, i < hours.length → s < dim → k < n → 0 ≤ out i s k ∧ out i s k ≤ 1 := by
  intro i s k hi hs hk
  have hg : hours[i]? = some (hours[i]'hi) := List.getElem?_eq_getElem _
  have hne : hours ≠ [] := by intro h; rw [h] at hi; simp at hi
  obtain ⟨h1, h2⟩ := C55_samples Phi pars rvs dim n hd hours hh hne
  obtain ⟨cov, hc⟩ := Option.ne_none_iff_exists'.1 ((h1.1 ⟨out, ho⟩).2 _ (List.getElem_mem hi))
  obtain ⟨call, e⟩ := h2 out ho i _ cov hg hc s k hs hk
  rw [e]
  exact hPhi _

/-- C104 (fixed seed): with a fixed seed each hour restarts the same stream. So two rows of different hours, at the same position among the rows of
their hours, have the same samples whenever the two hours have equal correlations and equally many rows. -/
theorem C104_seed_restarts [Zero K] (Phi : K → K) (pars : Pars Cov) (rvs : Nat → Cov → Nat → Nat → Nat → Nat → Nat → K) (hseed : ∀ c c', rvs c = rvs c') (dim n : Nat) (hd : 1 ≤ dim)
    (hours : List Nat) (hh : ∀ h ∈ hours, h < 24) (out : Nat → Nat → Nat → K) (ho : sample Phi pars rvs dim n hours = .ok out)
    (i j h h' : Nat) (hi : hours[i]? = some h) (hj : hours[j]? = some h') (hpar : pars h = pars h') (hcnt : hours.count h = hours.count h')
    (hpos : (hours.take i).count h = (hours.take j).count h') : ∀ s k, s < dim → k < n → out i s k = out j s k := by
  intro s k hs hk
  have hne : hours ≠ [] := by intro h0; rw [h0] at hi; simp at hi
  obtain ⟨h1, h2⟩ := C55_samples Phi pars rvs dim n hd hours hh hne
  obtain ⟨cov, hc⟩ := Option.ne_none_iff_exists'.1 ((h1.1 ⟨out, ho⟩).2 h (List.mem_of_getElem? hi))
  obtain ⟨c1, e1⟩ := h2 out ho i h cov hi hc s k hs hk
  obtain ⟨c2, e2⟩ := h2 out ho j h' cov hj (by rw [← hpar]; exact hc) s k hs hk
  rw [e1, e2, hseed c1 c2, hcnt, hpos]

/-- C103: the hour on which the penalty is cross validated is always midnight, whatever the index; fitting with `glasso_cv` fails iff there is no row at midnight. -/
theorem C103_cross_validated_hour (hours : List Nat) :
    cvHour hours = 0 ∧ (∀ rows, glassoRows hours = .ok rows → ∀ i, i ∈ rows ↔ hours[i]? = some 0) ∧ ((∃ rows, glassoRows hours = .ok rows) ↔ 0 ∈ hours) := by
  have h0 : cvHour hours = 0 := by
    unfold cvHour
    apply argmaxPos_sorted
    rw [List.pairwise_map]
    exact valueCounts_sorted hours
  have hmem : ∀ i : Nat, i ∈ (List.range hours.length).filter (fun (i : Nat) => decide (hours[i]? = some 0)) ↔ hours[i]? = some 0 := by
    intro i
    rw [List.mem_filter, List.mem_range, decide_eq_true_eq]
    constructor
    · exact fun h => h.2
    · exact fun h => ⟨(List.getElem?_eq_some_iff.1 h).1, h⟩
  refine ⟨h0, ?_, ?_⟩
  · intro rows hr i
    unfold glassoRows at hr
    simp only [h0] at hr
    split at hr
    · cases hr
    · cases hr; exact hmem i
  · unfold glassoRows
    simp only [h0]
    constructor
    · rintro ⟨rows, hr⟩
      split at hr
      · cases hr
      · rename_i hne
        obtain ⟨i, hi⟩ := List.exists_mem_of_ne_nil _ hne
        exact List.mem_of_getElem? ((hmem i).1 hi)
    · intro hm
      obtain ⟨i, hi⟩ := List.mem_iff_getElem?.1 hm
      rw [if_neg (by intro he; have := (hmem i).2 hi; rw [he] at this; simp at this)]
      exact ⟨_, rfl⟩

end

/-! ### C105: pre-fitted trees -/

section
variable {T : Type}

theorem prefitLoop_spec (hours : List Nat) (gen : Nat → Option T → Except PyErr T) : ∀ (hs : List Nat) (trees : Nat → Option T), hs.Nodup → (∀ h ∈ hs, h ≠ 0 ∨ hs.head? = some 0) →
    ((∃ out, prefitLoop hours gen hs trees = .ok out) → ∀ h ∈ hs, h ∈ hours) ∧
      ∀ out, prefitLoop hours gen hs trees = .ok out → (∀ k, k ∉ hs → out k = trees k) ∧
        ∀ h ∈ hs, ∃ t, out h = some t ∧ gen h (if h > 0 then out 0 else none) = .ok t := by
  intro hs
  induction hs with
  | nil =>
    intro trees _ _
    refine ⟨fun _ h hh => by simp at hh, ?_⟩
    intro out ho
    cases ho
    exact ⟨fun _ _ => rfl, fun h hh => by simp at hh⟩
  | cons h0 hs ih =>
    intro trees hnd hz
    have hnd' := List.nodup_cons.1 hnd
    have hnz : ∀ h ∈ hs, h ≠ 0 := by
      intro h hm he
      subst he
      rcases hz 0 (by simp [hm]) with h' | h'
      · exact h' rfl
      · rw [List.head?_cons] at h'
        exact hnd'.1 (by rw [Option.some.inj h']; exact hm)
    unfold prefitLoop
    by_cases hm : h0 ∉ hours
    · rw [if_pos hm]
      refine ⟨?_, ?_⟩
      · rintro ⟨out, ho⟩; cases ho
      · intro out ho; cases ho
    · rw [if_neg hm]
      rw [not_not] at hm
      cases hg : gen h0 (if h0 > 0 then trees 0 else none) with
      | error e =>
        simp only
        refine ⟨?_, ?_⟩
        · rintro ⟨out, ho⟩; cases ho
        · intro out ho; cases ho
      | ok t =>
        simp only
        obtain ⟨i1, i2⟩ := ih (fun k => if k = h0 then some t else trees k) hnd'.2 (fun h hh => Or.inl (hnz h hh))
        refine ⟨?_, ?_⟩
        · rintro hex h hh
          rcases List.mem_cons.1 hh with hh | hh
          · rw [hh]; exact hm
          · exact i1 hex h hh
        · intro out ho
          obtain ⟨j1, j2⟩ := i2 out ho
          refine ⟨?_, ?_⟩
          · intro k hk
            rw [List.mem_cons, not_or] at hk
            rw [j1 k hk.2, if_neg hk.1]
          · intro h hh
            rcases List.mem_cons.1 hh with hh | hh
            · subst hh
              refine ⟨t, by rw [j1 h hnd'.1, if_pos rfl], ?_⟩
              by_cases hpos : h > 0
              · rw [if_pos hpos] at hg ⊢
                have h0out : out 0 = trees 0 := by
                  rw [j1 0 (fun hc => hnz 0 hc rfl), if_neg (by omega)]
                rw [h0out]; exact hg
              · rw [if_neg hpos] at hg ⊢
                exact hg
            · exact j2 h hh

theorem prefitLoop_ok (hours : List Nat) (gen : Nat → Option T → Except PyErr T) (hg : ∀ h s, ∃ t, gen h s = .ok t) : ∀ (hs : List Nat) (trees : Nat → Option T), (∀ h ∈ hs, h ∈ hours) →
    ∃ out, prefitLoop hours gen hs trees = .ok out := by
  intro hs
  induction hs with
  | nil => intro trees _; exact ⟨trees, rfl⟩
  | cons h0 hs ih =>
    intro trees hm
    unfold prefitLoop
    rw [if_neg (not_not.2 (hm h0 (by simp)))]
    obtain ⟨t, ht⟩ := hg h0 (if h0 > 0 then trees 0 else none)
    rw [ht]
    exact ih _ (fun h hh => hm h (by simp [hh]))

/-- C105 (pre-fitting): if the tree builder never fails, trees are pre-fitted iff all 24 hours occur in the data, else fitting fails; then there is a tree for every hour of the day,
built by the tree builder, for the hours after midnight starting from the tree of midnight. Other copulas are refused. -/
theorem C105_prefit (hours : List Nat) (gen : Nat → Option T → Except PyErr T) :
    ((∃ h < 24, h ∉ hours) → ∃ e, prefit true hours gen = .error e) ∧ ((∀ h s, ∃ t, gen h s = .ok t) → (∀ h < 24, h ∈ hours) → ∃ trees, prefit true hours gen = .ok trees) ∧
      (∀ trees, prefit true hours gen = .ok trees → ∀ h < 24, ∃ t, trees h = some t ∧ gen h (if h = 0 then none else trees 0) = .ok t) ∧
      prefit false hours gen = .error .notImplementedError := by
  obtain ⟨h1, h2⟩ := prefitLoop_spec hours gen (List.range 24) (fun _ => none) List.nodup_range (fun h _ => Or.inr rfl)
  refine ⟨?_, fun hg hall => prefitLoop_ok hours gen hg _ _ (fun h hh => hall h (List.mem_range.1 hh)), ?_, rfl⟩
  · rintro ⟨h, hlt, hm⟩
    unfold prefit
    simp only [if_true]
    cases hp : prefitLoop hours gen (List.range 24) (fun _ => none) with
    | error e => exact ⟨e, rfl⟩
    | ok out => exact absurd (h1 ⟨out, hp⟩ h (List.mem_range.2 hlt)) hm
  · intro trees ht h hlt
    obtain ⟨t, e1, e2⟩ := (h2 trees ht).2 h (List.mem_range.2 hlt)
    refine ⟨t, e1, ?_⟩
    rw [← e2]
    congr 1
    by_cases hz : h = 0
    · rw [if_pos hz, if_neg (by omega)]
    · rw [if_neg hz, if_pos (by omega)]

/-- C105 (offline prediction): with pre-fitted trees every row gets the tree of its hour with its prediction superimposed, independent of the other rows. -/
theorem C105_offline {P : Type} (hours : List Nat) (gen : Nat → Option T → Except PyErr T) (trees : Nat → Option T) (ht : prefit true hours gen = .ok trees) (sup : P → T → T)
    (rows : List (Nat × P)) (hr : ∀ r ∈ rows, r.1 < 24) :
    ∃ out, offlineTrees trees sup rows = .ok out ∧ out.length = rows.length ∧ ∀ (i h : Nat) (p : P), rows[i]? = some (h, p) → ∃ t, trees h = some t ∧ out[i]? = some (sup p t) := by
  induction rows with
  | nil => exact ⟨[], rfl, rfl, fun i h p hi => by simp at hi⟩
  | cons r rows ih =>
    obtain ⟨out, e1, e2, e3⟩ := ih (fun x hx => hr x (by simp [hx]))
    obtain ⟨t, g1, _⟩ := (C105_prefit hours gen).2.2.1 trees ht r.1 (hr r (by simp))
    refine ⟨sup r.2 t :: out, ?_, by simp [e2], ?_⟩
    · obtain ⟨h, p⟩ := r
      unfold offlineTrees
      simp only at g1
      rw [g1]
      simp only
      rw [e1]
    · intro i h p hi
      cases i with
      | zero =>
        rw [List.getElem?_cons_zero] at hi
        cases hi
        exact ⟨t, g1, rfl⟩
      | succ i =>
        rw [List.getElem?_cons_succ] at hi
        exact e3 i h p hi

/-- C105 (offline prediction, any table of trees): rows are never dropped: the call succeeds iff the hour of every row has a tree. -/
theorem C105_offline_refused {P : Type} (trees : Nat → Option T) (sup : P → T → T) (rows : List (Nat × P)) :
    (∃ out, offlineTrees trees sup rows = .ok out) ↔ ∀ r ∈ rows, trees r.1 ≠ none := by
  induction rows with
  | nil => exact ⟨fun _ r hr => by simp at hr, fun _ => ⟨[], rfl⟩⟩
  | cons r rows ih =>
    obtain ⟨h, p⟩ := r
    unfold offlineTrees
    cases ht : trees h with
    | none =>
      simp only
      constructor
      · rintro ⟨out, ho⟩; cases ho
      · intro hr; exact absurd ht (hr (h, p) (by simp))
    | some t =>
      simp only
      constructor
      · rintro ⟨out, ho⟩ r hr
        rcases List.mem_cons.1 hr with hr | hr
        · rw [hr]; simp [ht]
        · cases hoff : offlineTrees trees sup rows with
          | error e => rw [hoff] at ho; cases ho
          | ok out' => exact ih.1 ⟨out', hoff⟩ r hr
      · intro hr
        obtain ⟨out, ho⟩ := ih.2 (fun r h => hr r (by simp [h]))
        rw [ho]
        exact ⟨_, rfl⟩

end

end PyF.ScenGen
